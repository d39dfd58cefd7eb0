import Verif.Props.Response

/-! # C37: frequencies chosen automatically -/

namespace Ross.Props

open Ross Ross.Spec Ross.BearingLemmas Rotor

/-- The number of points on each side of a natural frequency: as asked between 2 and 12, else 10 or 4. -/
def clusterSize (n : ℤ) : ℕ := if 12 < n then 10 else if n < 2 then 4 else n.toNat

/-- The distance, as a factor, of point `j` of `n` from a natural frequency with damping ratio `ζ`. -/
noncomputable def clusterFactor (ζ : ℝ) (n j : ℕ) : ℝ :=
  1 + max ζ 0.005 ^ (2 * ((n : ℝ) - j + 1) / (n - 1))

theorem clusterFactor_gt (ζ : ℝ) (n j : ℕ) : 1 < clusterFactor ζ n j := by
  have : 0 < max ζ (0.005 : ℝ) := lt_max_of_lt_right (by norm_num)
  have := Real.rpow_pos_of_pos this (2 * ((n : ℝ) - j + 1) / (n - 1))
  unfold clusterFactor
  linarith

/-- The frequencies `x` and damping ratios `ζ` of the selected modes; negative numbers count from the end. -/
def Selected {α : Type} (l : List α) (modes : Option (List ℤ)) (sel : List α) : Prop :=
  match modes with
  | none => sel = l
  | some ms => List.Forall₂ (fun (m : ℤ) x => l[(if 0 ≤ m then m else m + l.length).toNat]? = some x ∧
      -(l.length : ℤ) ≤ m ∧ m < l.length) ms sel

theorem wrap_some {α : Type} {l : List α} {ms : List ℤ} {idx : List ℕ} (d : α) (h : ms.mapM (wrap l.length) = .ok idx) :
    Selected l (some ms) (idx.map fun i => l.getD i d) := by
  unfold Selected
  simp only
  rw [List.forall₂_iff_get]
  obtain ⟨hl, hg⟩ := mapM_get h
  refine ⟨by simp [hl], fun k h1 h2 => ?_⟩
  obtain ⟨y, hy, hw⟩ := hg k h1
  have hk : k < idx.length := by omega
  rw [List.getElem?_eq_getElem hk] at hy
  have hy' := Option.some.inj hy
  simp only [List.get_eq_getElem, List.getElem_map, hy']
  unfold wrap at hw
  by_cases c1 : 0 ≤ ms[k] ∧ ms[k] < l.length
  · rw [if_pos c1] at hw
    cases hw
    have hlt : ms[k].toNat < l.length := by omega
    rw [if_pos c1.1, List.getD_eq_getElem?_getD, List.getElem?_eq_getElem hlt]
    exact ⟨rfl, by omega, c1.2⟩
  · rw [if_neg c1] at hw
    by_cases c2 : -(l.length : ℤ) ≤ ms[k] ∧ ms[k] < 0
    · rw [if_pos c2] at hw
      cases hw
      have hlt : (ms[k] + l.length).toNat < l.length := by omega
      rw [if_neg (by omega), List.getD_eq_getElem?_getD, List.getElem?_eq_getElem hlt]
      exact ⟨rfl, c2.1, by omega⟩
    · rw [if_neg c2] at hw; cases hw

theorem selected_map {α β : Type} {l : List α} {f : α → β} {modes : Option (List ℤ)} {sel : List β}
    (h : Selected (l.map f) modes sel) : ∃ s, Selected l modes s ∧ sel = s.map f := by
  cases modes with
  | none => exact ⟨l, rfl, h⟩
  | some ms =>
    unfold Selected at h ⊢
    simp only at h ⊢
    induction h with
    | nil => exact ⟨[], .nil, rfl⟩
    | @cons m x ms sel hx _ ih =>
      obtain ⟨s, hs, rfl⟩ := ih
      simp only [List.length_map, List.getElem?_map, Option.map_eq_some_iff] at hx
      obtain ⟨⟨y, hy, rfl⟩, h2⟩ := hx
      exact ⟨y :: s, .cons ⟨hy, h2⟩ hs, rfl⟩

theorem selected_length {α β : Type} {l : List α} {m : List β} {modes : Option (List ℤ)} {s : List α} {t : List β}
    (h : l.length = m.length) (hs : Selected l modes s) (ht : Selected m modes t) : s.length = t.length := by
  cases modes with
  | none => rw [show s = l from hs, show t = m from ht, h]
  | some ms =>
    have h1 := List.Forall₂.length_eq hs
    have h2 := List.Forall₂.length_eq ht
    omega

theorem selected_mem {α : Type} {l : List α} {modes : Option (List ℤ)} {s : List α} (hs : Selected l modes s) :
    ∀ x ∈ s, x ∈ l := by
  cases modes with
  | none => rw [show s = l from hs]; exact fun x h => h
  | some ms =>
    unfold Selected at hs
    simp only at hs
    induction hs with
    | nil => simp
    | cons hx _ ih =>
      intro y hy
      rcases List.mem_cons.1 hy with rfl | hy
      · exact List.mem_of_getElem? hx.1
      · exact ih y hy

theorem zipIdx_flatMap {l : List ℝ} {d : List ℝ} (hl : l.length = d.length) (F : ℝ → ℝ → List ℝ) :
    (l.zipIdx.flatMap fun x => F x.1 (d.getD x.2 0)) = (l.zip d).flatMap fun x => F x.1 x.2 := by
  rw [List.flatMap_def, List.flatMap_def]
  congr 1
  apply List.ext_getElem
  · simp; omega
  · intro i h1 h2
    have h3 : i < d.length := by simp at h2; omega
    simp [List.getD_eq_getElem?_getD, List.getElem?_eq_getElem h3]

/-- **C37** The automatic frequencies start at 0 and ascend. Apart from the 0 they are, for every selected natural
frequency `ω` with damping ratio `ζ`, as many points `ω / a` below as points `ω a` above it. -/
theorem C37_points {omega damping : List ℝ} {n : ℤ} {modes : Option (List ℤ)} {res : List ℝ}
    (hl : omega.length = damping.length) (h : clustering_points omega damping n modes = .ok res) :
    ∃ ω ζ pts, Selected omega modes ω ∧ Selected damping modes ζ ∧ res = 0 :: pts ∧ pts.Pairwise (· ≤ ·) ∧
      pts.Perm ((ω.zip ζ).flatMap (fun x => (List.range (clusterSize n)).map fun (j : ℕ) =>
          x.1 / clusterFactor x.2 (clusterSize n) j) ++
        (ω.zip ζ).flatMap fun x => (List.range (clusterSize n)).map fun (j : ℕ) =>
          x.1 * clusterFactor x.2 (clusterSize n) j) := by
  let f : ℝ → ℝ := fun d => if 0.005 ≤ d then d else 0.005
  have hf : ∀ d, f d = max d 0.005 := by
    intro d
    by_cases hd : (0.005 : ℝ) ≤ d
    · simp only [f, if_pos hd, max_eq_left hd]
    · simp only [f, if_neg hd, max_eq_right (not_le.1 hd).le]
  unfold clustering_points at h
  obtain ⟨ω, hω, h⟩ := bind_ok.1 h
  obtain ⟨ζ', hζ', h⟩ := bind_ok.1 h
  have hpick : ∀ {x y : List ℝ}, pick modes x = .ok y → Selected x modes y := by
    intro x y hxy
    cases modes with
    | none => cases hxy; exact rfl
    | some ms =>
      obtain ⟨idx, hidx, hxy⟩ := bind_ok.1 hxy
      cases hxy
      exact wrap_some 0 hidx
  have hw : Selected omega modes ω ∧ Selected (damping.map f) modes ζ' := ⟨hpick hω, hpick hζ'⟩
  obtain ⟨ζ, hζ, rfl⟩ := selected_map hw.2
  have hlen := selected_length hl hw.1 hζ
  set N : ℤ := if 12 < n then 10 else if n < 2 then 4 else n with hN
  have hNn : N = (clusterSize n : ℤ) := by
    rw [hN]; unfold clusterSize
    split_ifs
    · rfl
    · rfl
    · omega
  have hNt : N.toNat = clusterSize n := by omega
  have hNr : (N : ℝ) = (clusterSize n : ℝ) := by rw [hNn]; norm_cast
  have hgrid : ∀ g : ℝ → ℝ → ℝ, (ω.zipIdx.flatMap fun x => (List.range N.toNat).map fun (j : ℕ) =>
      g x.1 (1 + ((ζ.map f).getD x.2 0) ^ (2 * ((N : ℝ) - j + 1) / (N - 1)))) =
      (ω.zip ζ).flatMap fun x => (List.range (clusterSize n)).map fun (j : ℕ) =>
        g x.1 (clusterFactor x.2 (clusterSize n) j) := by
    intro g
    rw [hNt, hNr, zipIdx_flatMap (by simpa using hlen) fun w z => (List.range (clusterSize n)).map fun (j : ℕ) =>
      g w (1 + z ^ (2 * ((clusterSize n : ℝ) - j + 1) / (clusterSize n - 1))), List.zip_map_right, List.flatMap_map]
    refine List.flatMap_congr fun x _ => List.map_congr_left fun j _ => ?_
    simp only [Prod.map, id, hf, clusterFactor]
  refine ⟨ω, ζ, _, hw.1, hζ, (Except.ok.inj h).symm, ?_, ?_⟩
  · have := List.pairwise_mergeSort (le := fun x y : ℝ => decide (x ≤ y)) (by simpa using fun a b c => le_trans)
      (by simpa using fun a b => le_total a b)
    exact (this _).imp fun h => by simpa using h
  · refine List.Perm.trans (List.mergeSort_perm _ _) ?_
    exact List.Perm.of_eq (congrArg₂ (· ++ ·) (hgrid (· / ·)) (hgrid (· * ·)))

theorem sum_const_length {α : Type} (l : List α) (f : α → List ℝ) (n : ℕ) (h : ∀ x ∈ l, (f x).length = n) :
    (l.flatMap f).length = l.length * n := by
  induction l with
  | nil => simp
  | cons x l ih =>
    rw [List.flatMap_cons, List.length_append, h x (by simp), ih fun y hy => h y (by simp [hy]), List.length_cons]
    ring

theorem countP_flatMap_ge {α : Type} {l : List α} {f : α → List ℝ} {n : ℕ} {p : ℝ → Bool} {x : α} (hx : x ∈ l)
    (hl : (f x).length = n) (hp : ∀ y ∈ f x, p y = true) : n ≤ (l.flatMap f).countP p := by
  rw [List.countP_flatMap]
  have : (f x).countP p = n := by rw [List.countP_eq_length.2 hp, hl]
  rw [← this]
  exact List.single_le_sum (fun _ _ => Nat.zero_le _) _ (List.mem_map_of_mem hx)

open Classical in
/-- **C37** For positive natural frequencies: 0, and `clusterSize` points on either side of each frequency, all of them
positive; one in all, and twice `clusterSize` for each frequency. -/
theorem C37_sides {omega damping : List ℝ} {n : ℤ} {modes : Option (List ℤ)} {res : List ℝ}
    (hl : omega.length = damping.length) (hpos : ∀ w ∈ omega, 0 < w)
    (h : clustering_points omega damping n modes = .ok res) :
    ∃ ω pts, Selected omega modes ω ∧ res = 0 :: pts ∧ pts.Pairwise (· ≤ ·) ∧ (∀ x ∈ pts, 0 < x) ∧
      pts.length = 2 * clusterSize n * ω.length ∧
      ∀ w ∈ ω, clusterSize n ≤ pts.countP (fun x => x < w) ∧ clusterSize n ≤ pts.countP (fun x => w < x) := by
  obtain ⟨ω, ζ, pts, h1, h2, h3, h4, h5⟩ := C37_points hl h
  have hlen := selected_length hl h1 h2
  have hw : ∀ x ∈ ω.zip ζ, 0 < x.1 := fun x hx => hpos _ (selected_mem h1 _ (List.of_mem_zip hx).1)
  refine ⟨ω, pts, h1, h3, h4, fun x hx => ?_, ?_, fun w hwm => ?_⟩
  · rcases List.mem_append.1 (h5.mem_iff.1 hx) with hx | hx <;>
    · obtain ⟨y, hy, hx⟩ := List.mem_flatMap.1 hx
      obtain ⟨j, -, rfl⟩ := List.mem_map.1 hx
      have := clusterFactor_gt y.2 (clusterSize n) j
      have := hw y hy
      positivity
  · rw [h5.length_eq, List.length_append, sum_const_length _ _ (clusterSize n) (by simp),
      sum_const_length _ _ (clusterSize n) (by simp), List.length_zip, ← hlen, min_self]
    ring
  · obtain ⟨i, hi, rfl⟩ := List.getElem_of_mem hwm
    have hi' : i < (ω.zip ζ).length := by simp; omega
    have hm := List.getElem_mem hi'
    have h0 := hw _ hm
    have he : (ω.zip ζ)[i].1 = ω[i] := by simp
    rw [h5.countP_eq, h5.countP_eq, List.countP_append, List.countP_append]
    constructor
    · refine le_trans (countP_flatMap_ge hm (by simp) ?_) (Nat.le_add_right _ _)
      intro y hy
      obtain ⟨j, -, rfl⟩ := List.mem_map.1 hy
      rw [decide_eq_true_iff, ← he]
      exact div_lt_self h0 (clusterFactor_gt _ _ _)
    · refine le_trans (countP_flatMap_ge hm (by simp) ?_) (Nat.le_add_left _ _)
      intro y hy
      obtain ⟨j, -, rfl⟩ := List.mem_map.1 hy
      rw [decide_eq_true_iff, ← he]
      exact lt_mul_of_one_lt_right h0 (clusterFactor_gt _ _ _)

/-- Two of three natural frequencies, counted from either end. -/
example : ∃ res, clustering_points [10, 20, 35] [0.1, 0, 2] 5 (some [1, -1]) = .ok res := by
  unfold clustering_points
  exact ⟨_, rfl⟩

end Ross.Props
