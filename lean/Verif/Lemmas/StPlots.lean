import Verif.Spec.StPlots
import Verif.Lemmas.Percentile
import Verif.Lemmas.Shape
import Verif.Lemmas.ListRes

/-! # Curves of random results -/

namespace Ross.StPlotsLemmas

open Ross.Stochastic Ross.Spec Ross.PercentileLemmas

theorem npSort_perm (l : List ℝ) : (npSort l).Perm l := List.mergeSort_perm _ _

theorem npSort_le (l : List ℝ) : (npSort l).Pairwise (· ≤ ·) := by
  have := List.pairwise_mergeSort' (r := ((· ≤ ·) : ℝ → ℝ → Prop)) l
  exact this

theorem bindOk {α β : Type} {x : Res α} {f : α → Res β} {b : β} (h : (x >>= f) = .ok b) :
    ∃ a, x = .ok a ∧ f a = .ok b := by
  cases x with
  | error e => cases h
  | ok a => exact ⟨a, rfl, h⟩

theorem mapM_forall₂ {α β : Type} {f : α → Res β} {l : List α} {r : List β} :
    l.mapM f = .ok r ↔ List.Forall₂ (fun a b => f a = .ok b) l r := by
  rw [mapM_ok_iff]
  induction l generalizing r with
  | nil => cases r <;> simp
  | cons a l ih =>
    cases r with
    | nil => simp
    | cons b r => simp [ih]

theorem percentileRows_iff {rows : List (List ℝ)} {q : ℝ} {l : List ℝ} :
    percentileRows rows q = .ok l ↔ PercentileOf rows q l := mapM_forall₂

theorem meanRows_ok (rows : List (List ℝ)) : MeanOf rows (meanRows rows) := by
  unfold MeanOf meanRows
  rw [List.forall₂_map_right_iff, List.forall₂_same]
  intro s _
  rcases eq_or_ne s [] with rfl | hs
  · simp [mean]
  · have : (s.length : ℝ) ≠ 0 := by simpa using hs
    unfold mean
    field_simp

theorem bandRows_ok {rows : List (List ℝ)} {p : ℝ} {l : List ℝ} (h : bandRows rows p = .ok l) : BandOf rows p l := by
  obtain ⟨p1, h1, h⟩ := bindOk h
  obtain ⟨p2, h2, h⟩ := bindOk h
  exact ⟨p1, p2, (Except.ok.inj h).symm, percentileRows_iff.1 h1, percentileRows_iff.1 h2⟩

theorem percentileRows_exists {rows : List (List ℝ)} (hr : ∀ s ∈ rows, s ≠ []) {q : ℝ} (h0 : 0 ≤ q) (h1 : q ≤ 100) :
    ∃ l, percentileRows rows q = .ok l := by
  refine ⟨rows.map fun s => valueAt s (posOf s q), mapM_forall₂.2 ?_⟩
  rw [List.forall₂_map_right_iff, List.forall₂_same]
  exact fun s hs => percentile_eq (hr s hs) h0 h1

theorem bandRows_exists {rows : List (List ℝ)} (hr : ∀ s ∈ rows, s ≠ []) {p : ℝ} (h0 : 0 ≤ p) (h1 : p ≤ 100) :
    ∃ l, bandRows rows p = .ok l := by
  obtain ⟨a, ha⟩ := percentileRows_exists hr (q := 50 + p / 2) (by linarith) (by linarith)
  obtain ⟨b, hb⟩ := percentileRows_exists hr (q := 50 - p / 2) (by linarith) (by linarith)
  exact ⟨a ++ b.reverse, by unfold bandRows; rw [ha, hb]; rfl⟩

theorem forEach_ok {γ : Type} {k : Option ℕ} {curve : ℝ → Res γ} {ps : List ℝ} {cs : List γ}
    (h : forEach k curve ps = .ok cs) :
    List.Forall₂ (fun p c => curve p = .ok c) ps cs := by
  have h := mapM_forall₂.1 h
  have : ps = ps.zipIdx.map Prod.fst := by simp
  rw [this, List.forall₂_map_left_iff]
  refine h.imp fun q c hq => ?_
  obtain ⟨c', h1, hq⟩ := bindOk hq
  obtain ⟨_, -, hq⟩ := bindOk hq
  rw [h1, ← Except.ok.inj hq]

theorem forEach_exists {γ : Type} {k : Option ℕ} {curve : ℝ → Res γ} {ps : List ℝ}
    (h : ∀ p ∈ ps, ∃ c, curve p = .ok c) (hk : ∀ n, k = some n → ps.length ≤ n) :
    ∃ cs, forEach k curve ps = .ok cs := by
  have : ∀ l : List (ℝ × ℕ), (∀ q ∈ l, q.1 ∈ ps ∧ q.2 < ps.length) → ∃ cs, (l.mapM fun q => (do
      let c ← curve q.1
      hue k q.2
      pure c : Res γ)) = .ok cs := by
    intro l
    induction l with
    | nil => exact fun _ => ⟨[], rfl⟩
    | cons q l ih =>
      intro hl
      obtain ⟨cs, hcs⟩ := ih fun q hq => hl q (List.mem_cons_of_mem _ hq)
      obtain ⟨h1, h2⟩ := hl q List.mem_cons_self
      obtain ⟨c, hc⟩ := h _ h1
      have hh : hue k q.2 = .ok () := by
        unfold hue
        cases k with
        | none => rfl
        | some n => exact if_pos (h2.trans_le (hk n rfl))
      refine ⟨c :: cs, ?_⟩
      rw [List.mapM_cons, hcs, hc, ShapeLemmas.ok_bind, hh]
      rfl
  refine this _ fun q hq => ?_
  obtain ⟨h1, h2⟩ := List.mem_zipIdx' (x := q.1) (i := q.2) hq
  exact ⟨h2 ▸ List.getElem_mem _, h1⟩

theorem forEach_short {γ : Type} {n : ℕ} {curve : ℝ → Res γ} {ps : List ℝ} {cs : List γ}
    (h : forEach (some n) curve ps = .ok cs) : ps.length ≤ n := by
  by_contra hlt
  push Not at hlt
  have h := mapM_forall₂.1 h
  have hl : n < ps.zipIdx.length := by simpa using hlt
  have := List.forall₂_iff_get.1 h
  have h2 := this.2 n hl (by rw [← this.1]; exact hl)
  obtain ⟨c', -, hq⟩ := bindOk h2
  obtain ⟨_, hq, -⟩ := bindOk hq
  simp [hue] at hq

theorem sorted_scale {f : ℝ} (hf : 0 ≤ f) (l : List ℝ) : sorted (l.map (f * ·)) = (sorted l).map (f * ·) := by
  apply List.Perm.eq_of_pairwise (le := (· ≤ ·)) (fun a b _ _ h h' => le_antisymm h h')
  · exact npSort_le _
  · exact (npSort_le l).map _ fun a b h => mul_le_mul_of_nonneg_left h hf
  · exact (sorted_perm _).trans ((sorted_perm l).symm.map _)

theorem percentile_scale {f : ℝ} (hf : 0 ≤ f) {l : List ℝ} {q v : ℝ} (h : percentile l q = .ok v) :
    percentile (l.map (f * ·)) q = .ok (f * v) := by
  have hs := sorted_scale hf l
  unfold sorted at hs
  unfold percentile at h ⊢
  split_ifs at h ⊢ with hq
  simp only [hs, List.length_map, List.getElem?_map]
  dsimp only at h
  generalize (l.mergeSort fun a b => decide (a ≤ b)) = s at h ⊢
  generalize q / 100 * ((s.length : ℝ) - 1) = x at h ⊢
  cases h1 : s[⌊x⌋₊]? with
  | none => rw [h1] at h; cases h
  | some a =>
    rw [h1] at h
    cases h2 : s[⌊x⌋₊ + 1]? with
    | none => rw [h2] at h; rw [← Except.ok.inj h]; rfl
    | some b =>
      rw [h2] at h
      rw [← Except.ok.inj h]
      simp only [Option.map_some]
      congr 1
      ring

theorem PercentileOf.scale {f : ℝ} (hf : 0 ≤ f) {rows : List (List ℝ)} {q : ℝ} {l : List ℝ}
    (h : PercentileOf rows q l) : PercentileOf (rows.map fun s => s.map (f * ·)) q (l.map (f * ·)) := by
  unfold PercentileOf at *
  rw [List.forall₂_map_left_iff, List.forall₂_map_right_iff]
  exact h.imp fun s y hy => percentile_scale hf hy

theorem MeanOf.scale {f : ℝ} {rows : List (List ℝ)} {l : List ℝ}
    (h : MeanOf rows l) : MeanOf (rows.map fun s => s.map (f * ·)) (l.map (f * ·)) := by
  unfold MeanOf at *
  rw [List.forall₂_map_left_iff, List.forall₂_map_right_iff]
  refine h.imp fun s y hy => ?_
  rw [List.length_map, List.sum_map_mul_left, List.map_id', mul_assoc, hy]

theorem BandOf.scale {f : ℝ} (hf : 0 ≤ f) {rows : List (List ℝ)} {p : ℝ} {l : List ℝ}
    (h : BandOf rows p l) : BandOf (rows.map fun s => s.map (f * ·)) p (l.map (f * ·)) := by
  obtain ⟨up, low, rfl, h1, h2⟩ := h
  exact ⟨up.map (f * ·), low.map (f * ·), by simp, PercentileOf.scale hf h1, PercentileOf.scale hf h2⟩

theorem each_of {γ : Type} {k : Option ℕ} {curve : ℝ → Res γ} {ps : List ℝ} {cs : List γ} {is : ℝ → γ → Prop}
    (h : forEach k curve (npSort ps) = .ok cs) (his : ∀ p c, curve p = .ok c → is p c) : EachOf ps is cs :=
  ⟨npSort ps, npSort_perm ps, npSort_le ps, (forEach_ok h).imp fun p c hc => his p c hc⟩

theorem each_exists {γ : Type} {k : Option ℕ} {curve : ℝ → Res γ} {ps : List ℝ} (hp : Percentages k ps)
    (h : ∀ p, 0 ≤ p → p ≤ 100 → ∃ c, curve p = .ok c) : ∃ cs, forEach k curve (npSort ps) = .ok cs :=
  forEach_exists (fun p hm => (h p (hp.1 p ((npSort_perm ps).mem_iff.1 hm)).1
    (hp.1 p ((npSort_perm ps).mem_iff.1 hm)).2))
    (fun n hn => by rw [(npSort_perm ps).length_eq]; exact hp.2 n hn)

section
variable {kp kc : Option ℕ} {x : List ℝ} {f fx fy : ℝ} {rows rx ry : List (List ℝ)} {percentile conf : List ℝ}
  {fig : StFigure Curve}

theorem statFigure_shows (hf : 0 ≤ f) (h : statFigure kp kc x f rows percentile conf = .ok fig) :
    Shows fig x (rows.map fun s => s.map (f * ·)) percentile conf := by
  obtain ⟨ps, h1, h⟩ := bindOk h
  obtain ⟨bs, h2, h⟩ := bindOk h
  obtain rfl := Except.ok.inj h
  refine ⟨⟨rfl, MeanOf.scale (meanRows_ok rows)⟩, each_of h1 fun p c hc => ?_, each_of h2 fun p c hc => ?_⟩
  · obtain ⟨y, hy, hc⟩ := bindOk hc
    obtain rfl := Except.ok.inj hc
    exact ⟨rfl, PercentileOf.scale hf (percentileRows_iff.1 hy)⟩
  · obtain ⟨y, hy, hc⟩ := bindOk hc
    obtain rfl := Except.ok.inj hc
    exact ⟨rfl, BandOf.scale hf (bandRows_ok hy)⟩

theorem statFigure_exists (hr : ∀ s ∈ rows, s ≠ []) (hp : Percentages kp percentile) (hc : Percentages kc conf) :
    ∃ fig, statFigure kp kc x f rows percentile conf = .ok fig := by
  obtain ⟨ps, h1⟩ := each_exists (curve := fun p => (do
    let y ← percentileRows rows p
    pure ⟨x, y.map (f * ·)⟩ : Res Curve)) hp (fun p h0 h1 => by
      obtain ⟨l, hl⟩ := percentileRows_exists hr h0 h1
      exact ⟨_, by rw [hl]; rfl⟩)
  obtain ⟨bs, h2⟩ := each_exists (curve := fun p => (do
    let y ← bandRows rows p
    pure ⟨x ++ x.reverse, y.map (f * ·)⟩ : Res Curve)) hc (fun p h0 h1 => by
      obtain ⟨l, hl⟩ := bandRows_exists hr h0 h1
      exact ⟨_, by rw [hl]; rfl⟩)
  exact ⟨_, by unfold statFigure; rw [h1, ShapeLemmas.ok_bind, h2]; rfl⟩

theorem statPair_shows (hx : 0 ≤ fx) (hy : 0 ≤ fy) (h : statPair kp kc fx fy rx ry percentile conf = .ok fig) :
    ShowsBoth fig (rx.map fun s => s.map (fx * ·)) (ry.map fun s => s.map (fy * ·)) percentile conf := by
  obtain ⟨ps, h1, h⟩ := bindOk h
  obtain ⟨bs, h2, h⟩ := bindOk h
  obtain rfl := Except.ok.inj h
  refine ⟨⟨MeanOf.scale (meanRows_ok rx), MeanOf.scale (meanRows_ok ry)⟩, each_of h1 fun p c hc => ?_, each_of h2 fun p c hc => ?_⟩
  · obtain ⟨y, hy1, hc⟩ := bindOk hc
    obtain ⟨z, hy2, hc⟩ := bindOk hc
    obtain rfl := Except.ok.inj hc
    exact ⟨PercentileOf.scale hx (percentileRows_iff.1 hy1), PercentileOf.scale hy (percentileRows_iff.1 hy2)⟩
  · obtain ⟨y, hy1, hc⟩ := bindOk hc
    obtain ⟨z, hy2, hc⟩ := bindOk hc
    obtain rfl := Except.ok.inj hc
    exact ⟨BandOf.scale hx (bandRows_ok hy1), BandOf.scale hy (bandRows_ok hy2)⟩

theorem statPair_exists (hr : ∀ s ∈ rx, s ≠ []) (hr' : ∀ s ∈ ry, s ≠ []) (hp : Percentages kp percentile)
    (hc : Percentages kc conf) : ∃ fig, statPair kp kc fx fy rx ry percentile conf = .ok fig := by
  obtain ⟨ps, h1⟩ := each_exists (curve := fun p => (do
    let p1 ← percentileRows rx p
    let p2 ← percentileRows ry p
    pure ⟨p1.map (fx * ·), p2.map (fy * ·)⟩ : Res Curve)) hp (fun p h0 h1 => by
      obtain ⟨l, hl⟩ := percentileRows_exists hr h0 h1
      obtain ⟨l', hl'⟩ := percentileRows_exists hr' h0 h1
      exact ⟨_, by rw [hl, hl']; rfl⟩)
  obtain ⟨bs, h2⟩ := each_exists (curve := fun p => (do
    let b1 ← bandRows rx p
    let b2 ← bandRows ry p
    pure ⟨b1.map (fx * ·), b2.map (fy * ·)⟩ : Res Curve)) hc (fun p h0 h1 => by
      obtain ⟨l, hl⟩ := bandRows_exists hr h0 h1
      obtain ⟨l', hl'⟩ := bandRows_exists hr' h0 h1
      exact ⟨_, by rw [hl, hl']; rfl⟩)
  exact ⟨_, by unfold statPair; rw [h1, ShapeLemmas.ok_bind, h2]; rfl⟩
end

theorem npSort_nil : npSort [] = [] := by simp [npSort]

theorem statFigure_nil {kp kc : Option ℕ} {x : List ℝ} {f : ℝ} {rows : List (List ℝ)} :
    statFigure kp kc x f rows [] [] = .ok ⟨⟨x, (meanRows rows).map (f * ·)⟩, [], []⟩ := by
  unfold statFigure
  rw [npSort_nil]
  rfl

theorem statPair_nil {kp kc : Option ℕ} {fx fy : ℝ} {rx ry : List (List ℝ)} :
    statPair kp kc fx fy rx ry [] [] = .ok ⟨⟨(meanRows rx).map (fx * ·), (meanRows ry).map (fy * ·)⟩, [], []⟩ := by
  unfold statPair
  rw [npSort_nil]
  rfl

theorem one_scale (rows : List (List ℝ)) : (rows.map fun s => s.map (1 * ·)) = rows := by simp

theorem axis0_over {α : Type} (n : ℕ) (samples : List (List α)) (g : α → ℝ) :
    axis0 n (samples.map fun l => l.map g) = over n samples g := by
  unfold axis0 over
  refine List.map_congr_left fun i _ => ?_
  rw [List.filterMap_map]
  refine List.filterMap_congr fun s _ => ?_
  simp

theorem over_scale {α : Type} (n : ℕ) (samples : List (List α)) (g : α → ℝ) (f : ℝ) :
    ((over n samples g).map fun s => s.map (f * ·)) = over n samples fun v => f * g v := by
  unfold over
  rw [List.map_map]
  refine List.map_congr_left fun i _ => ?_
  simp only [Function.comp, List.map_filterMap]
  refine List.filterMap_congr fun s _ => ?_
  cases s[i]? <;> rfl

theorem over_ne {α : Type} {n : ℕ} {samples : List (List α)} {g : α → ℝ} (h0 : samples ≠ [])
    (hl : ∀ s ∈ samples, s.length = n) : ∀ s ∈ over n samples g, s ≠ [] := by
  intro s hs
  obtain ⟨i, hi, rfl⟩ := List.mem_map.1 hs
  obtain ⟨s, l, rfl⟩ := List.exists_cons_of_ne_nil h0
  have : i < s.length := by rw [hl s List.mem_cons_self]; exact List.mem_range.1 hi
  rw [List.filterMap_cons, List.getElem?_eq_getElem this]
  simp

end Ross.StPlotsLemmas
