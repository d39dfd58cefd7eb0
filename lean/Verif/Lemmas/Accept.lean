import Verif.Spec.RotorInput
import Verif.Lemmas.Position
import Verif.Lemmas.RotorDofs

/-! # Well-formed rotor descriptions are accepted -/

namespace Ross.RotorLemmas

open Ross Ross.Spec Ross.BearingLemmas Ross.Rotor

theorem mapM_ok_of {α β : Type} {f : α → Res β} {l : List α} (h : ∀ x ∈ l, ∃ y, f x = .ok y) :
    ∃ r, l.mapM f = .ok r := by
  induction l with
  | nil => exact ⟨[], rfl⟩
  | cons a t ih =>
    obtain ⟨y, hy⟩ := h a List.mem_cons_self
    obtain ⟨r, hr⟩ := ih fun x hx => h x (List.mem_cons_of_mem _ hx)
    exact ⟨y :: r, by rw [List.mapM_cons, hy, hr]; rfl⟩

/-! ### Tags -/

theorem defTag_eq (k : String) (i : ℕ) (t : Option String) : defTag k i t = some (tagOr k i t) := by
  cases t <;> rfl

theorem setTag_tag (b : BrgEl) (t : Option String) : (b.setTag t).tag = t := by cases b <;> rfl
theorem setTag_n (b : BrgEl) (t : Option String) : (b.setTag t).n = b.n := by cases b <;> rfl
theorem setTag_link (b : BrgEl) (t : Option String) : (b.setTag t).n_link = b.n_link := by
  cases b <;> rfl
theorem pmSetTag_tag (b : PmEl) (t : Option String) : (b.setTag t).tag = t := by cases b <;> rfl
theorem pmSetTag_n (b : PmEl) (t : Option String) : (b.setTag t).n = b.n := by cases b <;> rfl

theorem map_mapIdx' {α β γ : Type*} (l : List α) (f : ℕ → α → β) (g : β → γ) :
    (l.mapIdx f).map g = l.mapIdx fun i x => g (f i x) := by
  apply List.ext_getElem <;> simp

theorem parts_br_perm (a : RotorArgs) : (parts a).br.Perm (tagBearings a.bearings) :=
  List.mergeSort_perm _ _

/-- The tags in the constructed rotor are those of the specification. -/
theorem tags_perm (a : RotorArgs) :
    ((parts a).elements.map Elm.tag).Perm ((allTags a).map some) := by
  unfold Parts.elements allTags
  simp only [List.map_append, List.map_map]
  refine List.Perm.append (List.Perm.append (List.Perm.append ?_ ?_) ?_) ?_
  · refine ((parts_sh_perm a).map _).trans (List.Perm.of_eq ?_)
    simp only [parts, numberShaft, map_mapIdx', shaftList]
    congr 1
    funext i e
    simp [Elm.tag, defTag_eq]
  · refine List.Perm.of_eq ?_
    simp only [parts, tagDisks, map_mapIdx']
    congr 1
    funext i e
    simp [Elm.tag, defTag_eq]
  · refine ((parts_br_perm a).map _).trans (List.Perm.of_eq ?_)
    simp only [tagBearings, map_mapIdx']
    congr 1
    funext i e
    simp [Elm.tag, defTag_eq, setTag_tag]
  · refine List.Perm.of_eq ?_
    simp only [parts, tagPms, map_mapIdx']
    congr 1
    funext i e
    simp [Elm.tag, defTag_eq, pmSetTag_tag]

/-! ### The rows of the data frame -/

/-- The rows, when positions of disks, bearings and point masses are given by their tags. -/
noncomputable def ideal (sh : List ShaftEl) (dk : List DiskEl) (br : List BrgEl) (pm : List PmEl)
    (pos : Option String → Option ℝ) : List Row :=
  (sh.map fun e => ⟨e.s.tag, some (nodeOf e), some (nodeOf e + 1), none,
      some (position sh (nodeOf e)),
      some (position sh (nodeOf e) + layerLength sh (nodeOf e)), false⟩) ++
  (dk.map fun e => ⟨e.d.tag, some e.d.n, some e.d.n, none, pos e.d.tag, pos e.d.tag, false⟩) ++
  (br.map fun b => ⟨b.tag, some b.n, some b.n, b.n_link, pos b.tag, pos b.tag, true⟩) ++
  (pm.map fun p => ⟨p.tag, none, none, none, pos p.tag, pos p.tag, false⟩)

variable {sh : List ShaftEl} {dk : List DiskEl} {br : List BrgEl} {pm : List PmEl}

theorem setPos_ideal {pos : Option String → Option ℝ} {t : Option String} {z : Option ℝ}
    (ht : ∀ e ∈ sh, e.s.tag ≠ t) :
    setPos (ideal sh dk br pm pos) t z =
      ideal sh dk br pm fun u => if u = t then z else pos u := by
  unfold setPos ideal
  simp only [List.map_append, List.map_map]
  congr 1
  · congr 1
    · congr 1
      · refine List.map_congr_left fun e he => ?_
        simp only [Function.comp]
        rw [if_neg (ht e he)]
      · refine List.map_congr_left fun e he => ?_
        simp only [Function.comp]
        split_ifs <;> rfl
    · refine List.map_congr_left fun e he => ?_
      simp only [Function.comp]
      split_ifs <;> rfl
  · refine List.map_congr_left fun e he => ?_
    simp only [Function.comp]
    split_ifs <;> rfl

theorem setPos_perm {rows rows' : List Row} (h : rows.Perm rows') (t : Option String)
    (z : Option ℝ) : (setPos rows t z).Perm (setPos rows' t z) := h.map _

theorem mem_ideal {pos : Option String → Option ℝ} {row : Row} :
    row ∈ ideal sh dk br pm pos ↔
      (∃ e ∈ sh, row = ⟨e.s.tag, some (nodeOf e), some (nodeOf e + 1), none,
        some (position sh (nodeOf e)),
        some (position sh (nodeOf e) + layerLength sh (nodeOf e)), false⟩) ∨
      (∃ e ∈ dk, row = ⟨e.d.tag, some e.d.n, some e.d.n, none, pos e.d.tag, pos e.d.tag, false⟩) ∨
      (∃ b ∈ br, row = ⟨b.tag, some b.n, some b.n, b.n_link, pos b.tag, pos b.tag, true⟩) ∨
      (∃ p ∈ pm, row = ⟨p.tag, none, none, none, pos p.tag, pos p.tag, false⟩) := by
  simp only [ideal, List.mem_append, List.mem_map, or_assoc]
  constructor <;> rintro (⟨e, he, h⟩ | ⟨e, he, h⟩ | ⟨e, he, h⟩ | ⟨e, he, h⟩)
  · exact Or.inl ⟨e, he, h.symm⟩
  · exact Or.inr (Or.inl ⟨e, he, h.symm⟩)
  · exact Or.inr (Or.inr (Or.inl ⟨e, he, h.symm⟩))
  · exact Or.inr (Or.inr (Or.inr ⟨e, he, h.symm⟩))
  · exact Or.inl ⟨e, he, h.symm⟩
  · exact Or.inr (Or.inl ⟨e, he, h.symm⟩)
  · exact Or.inr (Or.inr (Or.inl ⟨e, he, h.symm⟩))
  · exact Or.inr (Or.inr (Or.inr ⟨e, he, h.symm⟩))

theorem concat_perm (hs : sh.Pairwise fun x y => nodeOf x ≤ nodeOf y) :
    (concatRows sh (shaftPos sh) dk br pm).Perm (ideal sh dk br pm fun _ => none) := by
  unfold concatRows ideal
  have h1 : shaftRows sh (shaftPos sh) = sh.map fun e => ⟨e.s.tag, some (nodeOf e),
      some (nodeOf e + 1), none, some (position sh (nodeOf e)),
      some (position sh (nodeOf e) + layerLength sh (nodeOf e)), false⟩ := by
    rw [shaftRows, shaftPos_eq hs, zip_self_map, List.map_map]
    rfl
  rw [h1]
  have h2 : (brgRows (br.filter fun b => !b.isSeal) ++ brgRows (br.filter fun b => b.isSeal)).Perm
      (br.map fun b => ⟨b.tag, some b.n, some b.n, b.n_link, none, none, true⟩) := by
    unfold brgRows
    rw [← List.map_append]
    refine List.Perm.map _ ?_
    have := List.filter_append_perm (fun b : BrgEl => b.isSeal) br
    exact (List.perm_append_comm).trans this
  have h3 := (List.perm_append_comm (l₁ := pmRows pm)
    (l₂ := brgRows (br.filter fun b => b.isSeal)))
  rw [List.append_assoc (_ ++ _ ++ _)]
  refine (List.Perm.append_left _ h3).trans ?_
  rw [← List.append_assoc]
  refine List.Perm.append ?_ (List.Perm.of_eq rfl)
  rw [List.append_assoc]
  exact List.Perm.append (List.Perm.of_eq rfl) h2

/-- The loop that positions the disks. -/
theorem disk_loop (l : List (DiskEl × ℝ)) (hd : (l.map fun x => x.1.d.tag).Nodup)
    (hsh : ∀ x ∈ l, ∀ e ∈ sh, e.s.tag ≠ x.1.d.tag) :
    ∀ (rows : List Row) (pos : Option String → Option ℝ), rows.Perm (ideal sh dk br pm pos) →
    ∃ pos', (l.foldl (fun rows x => setPos rows x.1.d.tag (some x.2)) rows).Perm
        (ideal sh dk br pm pos') ∧ (∀ x ∈ l, pos' x.1.d.tag = some x.2) ∧
        (∀ t, (∀ x ∈ l, x.1.d.tag ≠ t) → pos' t = pos t) := by
  induction l with
  | nil => intro rows pos h; exact ⟨pos, h, by simp, fun _ _ => rfl⟩
  | cons x t ih =>
    intro rows pos h
    rw [List.foldl_cons]
    rw [List.map_cons, List.nodup_cons] at hd
    have h1 : (setPos rows x.1.d.tag (some x.2)).Perm
        (ideal sh dk br pm fun u => if u = x.1.d.tag then some x.2 else pos u) := by
      rw [← setPos_ideal (hsh x List.mem_cons_self)]
      exact setPos_perm h _ _
    obtain ⟨pos', hp, hv, ho⟩ := ih hd.2 (fun y hy => hsh y (List.mem_cons_of_mem _ hy)) _ _ h1
    refine ⟨pos', hp, ?_, ?_⟩
    · intro y hy
      rcases List.mem_cons.1 hy with rfl | hy
      · rw [ho, if_pos rfl]
        intro z hz hc
        exact hd.1 (List.mem_map.2 ⟨z, hz, hc⟩)
      · exact hv y hy
    · intro u hu
      rw [ho u fun y hy => hu y (List.mem_cons_of_mem _ hy), if_neg]
      exact fun hc => hu x List.mem_cons_self hc.symm

/-! ### The shape of a well-formed shaft -/

/-- A sorted shaft that fills the nodes `0, …, N`. -/
structure Full (sh : List ShaftEl) (N : ℕ) : Prop where
  pos : 0 < N
  sorted : sh.Pairwise fun x y => nodeOf x ≤ nodeOf y
  nodes : ∀ k, (∃ e ∈ sh, nodeOf e = k) ↔ k < N
  len : ∀ e ∈ sh, 0 < e.s.L

namespace Full

variable {N : ℕ} (hf : Full sh N)
include hf

theorem left : leftNodes sh = Finset.range N := by
  ext k; rw [mem_leftNodes, hf.nodes, Finset.mem_range]

theorem ne : sh ≠ [] := by
  obtain ⟨e, he, -⟩ := (hf.nodes 0).2 hf.pos
  exact List.ne_nil_of_mem he

theorem layer_pos {k : ℕ} (hk : k < N) : 0 < layerLength sh k := by
  obtain ⟨e, he, hek⟩ := (hf.nodes k).2 hk
  unfold layerLength
  rw [leftNode_eq]
  cases h : sh.find? fun e => nodeOf e = k with
  | none => exact absurd hek (by simpa using List.find?_eq_none.1 h e he)
  | some x => exact hf.len x (List.mem_of_find?_eq_some h)

theorem position_eq {k : ℕ} (hk : k ≤ N) :
    position sh k = ∑ x ∈ Finset.range k, layerLength sh x := by
  unfold position
  rw [hf.left]
  refine Finset.sum_congr ?_ fun _ _ => rfl
  ext x
  simp only [Finset.mem_filter, Finset.mem_range]
  omega

theorem position_succ {k : ℕ} (hk : k < N) :
    position sh k + layerLength sh k = position sh (k + 1) := by
  rw [hf.position_eq hk.le, hf.position_eq hk, Finset.sum_range_succ]

theorem position_zero : position sh 0 = 0 := by
  rw [hf.position_eq (Nat.zero_le _)]; simp

theorem mono {i j : ℕ} (hij : i < j) (hj : j ≤ N) : position sh i < position sh j := by
  rw [hf.position_eq (by omega), hf.position_eq hj,
    ← Finset.sum_range_add_sum_Ico _ hij.le]
  have : 0 < ∑ x ∈ Finset.Ico i j, layerLength sh x := by
    refine Finset.sum_pos (fun x hx => hf.layer_pos ?_) ⟨i, ?_⟩
    · have := Finset.mem_Ico.1 hx; omega
    · exact Finset.mem_Ico.2 ⟨le_rfl, hij⟩
  linarith

theorem inj {i j : ℕ} (hi : i ≤ N) (hj : j ≤ N) (h : position sh i = position sh j) : i = j := by
  rcases lt_trichotomy i j with h1 | h1 | h1
  · exact absurd h (hf.mono h1 hj).ne
  · exact h1
  · exact absurd h (hf.mono h1 hi).ne'

theorem last : lastNode sh + 1 = N := by
  obtain ⟨e, he⟩ : ∃ e, sh.getLast? = some e :=
    ⟨_, List.getLast?_eq_getLast_of_ne_nil hf.ne⟩
  have hl : lastNode sh = nodeOf e := by simp [lastNode, he]
  have hlt : nodeOf e < N := (hf.nodes _).1 ⟨e, List.mem_of_getLast? he, rfl⟩
  obtain ⟨w, hw, hwN⟩ := (hf.nodes (N - 1)).2 (by have := hf.pos; omega)
  have hge : nodeOf w ≤ nodeOf e := by
    have hsp : sh = sh.dropLast ++ [e] := by
      obtain ⟨ys, hys⟩ := List.getLast?_eq_some_iff.1 he
      rw [hys]; simp
    have hs := hf.sorted
    rw [hsp] at hs hw
    rcases List.mem_append.1 hw with h | h
    · exact (List.pairwise_append.1 hs).2.2 w h e (by simp)
    · rw [List.mem_singleton.1 h]
  omega

theorem head : ((shaftPos sh).head?.map Prod.fst).getD 0 = 0 := by
  cases hsh : sh with
  | nil => exact absurd hsh hf.ne
  | cons e t => simp [shaftPos]

theorem tail : ((shaftPos sh).getLast?.map Prod.snd).getD 0 = position sh N := by
  rw [shaftPos_eq hf.sorted, List.getLast?_map]
  obtain ⟨e, he⟩ : ∃ e, sh.getLast? = some e :=
    ⟨_, List.getLast?_eq_getLast_of_ne_nil hf.ne⟩
  have hl : lastNode sh = nodeOf e := by simp [lastNode, he]
  have := hf.last
  rw [he]
  simp only [Option.map_some, Option.getD_some]
  rw [position_succ_last hf.sorted he, ← hl, this]

theorem groups_eq : groups sh = List.range N := by
  refine List.Perm.eq_of_pairwise (le := (· < ·)) (fun a b _ _ h1 h2 => by omega)
    (groups_sorted hf.sorted) (List.pairwise_lt_range) ?_
  rw [List.perm_ext_iff_of_nodup (show (groups sh).Nodup from List.nodup_dedup _) List.nodup_range]
  intro k
  rw [mem_groups, hf.left, Finset.mem_range, List.mem_range]

theorem nodesPos : Rotor.nodesPos sh = (List.range (N + 1)).map (position sh) := by
  rw [nodesPos_eq hf.ne hf.sorted, hf.groups_eq, hf.last, List.range_succ]

end Full

end Ross.RotorLemmas
