import Verif.Lemmas.FromSection
import Verif.Props.Convergence

/-! # C45: building a rotor from the sections of its shaft -/

namespace Ross.Props

open Ross Ross.Spec Ross.RotorLemmas Ross.BearingLemmas Ross.ConvLemmas Ross.FromSectionLemmas
  Ross.ShaftLemmas Rotor

variable {pd : Pandas} {fuel : ℕ} {a : SectionArgs} {R : List Region} {r : Rotor}

/-- **C45** the shaft elements tile the sections in order: `nel_r` elements for each section, one after
the other; element `nel_r i + j` is the `j`-th of the equal slices of section `i`. -/
theorem C45_tiles (hR : SectionsOf a R) (h : fromSection pd fuel a = some (.ok r)) :
    r.shaft.length = a.nel_r * R.length ∧ SingleLayer r.shaft ∧
    ∀ i (hi : i < R.length) j (_ : j < a.nel_r), ∃ hp : a.nel_r * i + j < r.shaft.length,
      Slice a.nel_r j R[i] r.shaft[a.nel_r * i + j] ∧
      r.shaft[a.nel_r * i + j].s.n = some (a.nel_r * i + j) ∧
      r.shaft[a.nel_r * i + j].s.tag = some ("ShaftElement " ++ toString (a.nel_r * i + j)) := by
  obtain ⟨h1, h2, h3, -⟩ := section_shaft hR h
  exact ⟨h1, h2, h3⟩

theorem section_position (hR : SectionsOf a R) (h : fromSection pd fuel a = some (.ok r))
    (hk : a.nel_r ≠ 0) (i : ℕ) (hi : i ≤ R.length) :
    position r.shaft (a.nel_r * i) = ((R.map Region.L).take i).sum ∧
      ∀ j ≤ a.nel_r, ∀ h : i < R.length, position r.shaft (a.nel_r * i + j) =
        ((R.map Region.L).take i).sum + j * (R[i].L / a.nel_r) := by
  obtain ⟨hlen, hch, hp⟩ := C45_tiles hR h
  set k := a.nel_r
  have hk' : (k : ℝ) ≠ 0 := by exact_mod_cast hk
  have inner : ∀ i (h : i < R.length),
      position r.shaft (k * i) = ((R.map Region.L).take i).sum → ∀ j ≤ k,
      position r.shaft (k * i + j) = ((R.map Region.L).take i).sum + j * (R[i].L / k) := by
    intro i h h0 j hj
    induction j with
    | zero => simp [h0]
    | succ j ih =>
      obtain ⟨hb, hs, -⟩ := hp i h j (by omega)
      rw [← Nat.add_assoc, chain_succ hch hb, ih (by omega), hs.length]
      push_cast; ring
  have outer : ∀ i ≤ R.length, position r.shaft (k * i) = ((R.map Region.L).take i).sum := by
    intro i hi
    induction i with
    | zero => simp [chain_zero hch]
    | succ i ih =>
      have := inner i hi (ih (by omega)) k le_rfl
      rw [Nat.mul_succ, this, List.take_add_one, List.sum_append, List.getElem?_map,
        List.getElem?_eq_getElem (by omega)]
      simp
      field_simp
  exact ⟨outer i hi, fun j hj h => inner i h (outer i hi) j hj⟩

theorem single_nodesPos {sh : List ShaftEl} (hl : SingleLayer sh) (hne : sh ≠ []) :
    nodesPos sh = (List.range (sh.length + 1)).map (position sh) := by
  have hget : ∀ i (hi : i < sh.length), nodeOf sh[i] = i := by
    intro i hi
    have := congrArg (fun l => l[i]?) hl
    simp only [List.getElem?_map, List.getElem?_eq_getElem hi, List.getElem?_range hi,
      Option.map_some, Option.some.injEq] at this
    exact this
  have hs : sh.Pairwise fun x y => nodeOf x ≤ nodeOf y := by
    rw [List.pairwise_iff_getElem]
    intro i j hi hj hij
    rw [hget i hi, hget j hj]; exact hij.le
  have hlast : lastNode sh = sh.length - 1 := by
    unfold lastNode
    rw [List.getLast?_eq_getElem?, List.getElem?_eq_getElem (by
      have := List.length_pos_iff.2 hne; omega)]
    exact hget _ _
  have hg : groups sh = List.range sh.length := by
    show (sh.map leftNode).dedup = _
    rw [hl]
    exact List.nodup_range.dedup
  rw [nodesPos_eq hne hs, hg, hlast, Nat.sub_add_cancel (List.length_pos_iff.2 hne),
    List.range_succ]

/-- **C45** section `i` lies after the sections before it: node `nel_r i + j` is at the sum of their
lengths plus the fraction `j / nel_r` of its own.  The rotor is as long as the sections together. -/
theorem C45_positions (hR : SectionsOf a R) (hne : R ≠ []) (h : fromSection pd fuel a = some (.ok r)) :
    r.nodes_pos.length = a.nel_r * R.length + 1 ∧
    (∀ i (hi : i < R.length) j, j ≤ a.nel_r → r.nodes_pos[a.nel_r * i + j]? =
      some (((R.map Region.L).take i).sum + j / a.nel_r * R[i].L)) ∧
    r.L = (R.map Region.L).sum := by
  obtain ⟨b, hb, hx⟩ := fromSection_ok.1 h
  obtain ⟨L, dk, br, hk, -⟩ := (args_iff hR).1 hb
  have hk := hk hne
  obtain ⟨hlen, hch, -⟩ := C45_tiles hR h
  have hpos : 0 < a.nel_r * R.length :=
    Nat.mul_pos (Nat.pos_of_ne_zero hk) (List.length_pos_iff.2 hne)
  have e1 : r.nodes_pos = (List.range (a.nel_r * R.length + 1)).map (position r.shaft) := by
    rw [(init_ok hx).pos, single_nodesPos hch (List.ne_nil_of_length_pos (by omega)), hlen]
  refine ⟨by rw [e1]; simp, fun i hi j hj => ?_, ?_⟩
  · have : a.nel_r * (i + 1) ≤ a.nel_r * R.length := Nat.mul_le_mul_left _ hi
    rw [Nat.mul_succ] at this
    rw [e1, List.getElem?_map, List.getElem?_range (by omega), Option.map_some,
      (section_position hR h hk i hi.le).2 j hj hi]
    congr 1; ring
  · rw [(init_ok hx).L, e1]
    simp only [List.range_succ, List.map_append, List.map_cons, List.map_nil, List.getLast?_concat,
      Option.getD_some]
    rw [(section_position hR h hk _ le_rfl).1, List.take_of_length_le (by simp)]

/-- **C45** the mass of the shaft is that of the sections. -/
theorem C45_mass (hR : SectionsOf a R) (h : fromSection pd fuel a = some (.ok r)) :
    r.m_shaft = (R.map fun g => g.material.rho * ∫ x in (0)..g.L, g.area x).sum := by
  obtain ⟨b, hb, hx⟩ := fromSection_ok.1 h
  obtain ⟨-, -, -, X, hX, hk, hm⟩ := section_shaft hR h
  rw [(init_ok hx).m_shaft, hm, List.map_flatten, List.sum_flatten, List.map_map]
  congr 1
  obtain ⟨hlen, hget⟩ := mapM_get hX
  refine List.ext_getElem (by simp [hlen]) fun i h1 h2 => ?_
  have hi : i < R.length := by simpa using h2
  simp only [List.getElem_map, Function.comp]
  have hk' : (0 : ℤ) < (a.nel_r : ℤ) := by
    exact_mod_cast Nat.pos_of_ne_zero (hk (List.ne_nil_of_length_pos (by omega)))
  exact C13_mass _ (hget i hi (by omega)) hk'

/-- **C45** the disks are the given ones, named if they have no tag, at `nel_r` times their node. -/
theorem C45_disks (hR : SectionsOf a R) (h : fromSection pd fuel a = some (.ok r)) :
    ∃ dk, a.disk_data = some dk ∧ r.disks.length = dk.length ∧
      ∀ i (hi : i < dk.length) (hp : i < r.disks.length), MovedDisk (a.nel_r * dk[i].d.n)
        ⟨dk[i].six, { dk[i].d with tag := some (tagOr "Disk " i dk[i].d.tag) }⟩ r.disks[i] := by
  obtain ⟨b, hb, hx⟩ := fromSection_ok.1 h
  obtain ⟨L, dk, br, -, -, h2, -, rfl⟩ := (args_iff hR).1 hb
  have e : r.disks = tagDisks (dk.map (scaleDisk a.nel_r)) := (init_ok hx).disks
  refine ⟨dk, h2, by rw [e]; simp [tagDisks], fun i hi hp => ?_⟩
  have : r.disks[i]? = some ⟨dk[i].six, { dk[i].d with
      tag := some (tagOr "Disk " i dk[i].d.tag)
      n := a.nel_r * dk[i].d.n }⟩ := by
    rw [e]
    simp only [tagDisks, List.getElem?_mapIdx, List.getElem?_map, List.getElem?_eq_getElem hi,
      Option.map_some, scaleDisk]
    cases dk[i].d.tag <;> rfl
  rw [List.getElem?_eq_getElem hp, Option.some.injEq] at this
  rw [this]
  exact ⟨rfl, rfl, rfl, rfl, rfl, rfl⟩

/-- **C45** the bearings and seals are the given ones, named if they have no tag, at `nel_r` times
their node, in the order of the nodes. -/
theorem C45_bearings (hR : SectionsOf a R) (h : fromSection pd fuel a = some (.ok r)) :
    ∃ br l, a.brg_seal_data = some br ∧ r.bearings.Perm l ∧
      r.bearings.Pairwise (fun b c => b.n ≤ c.n) ∧ l.length = br.length ∧
      ∀ i (hi : i < br.length) (hp : i < l.length), MovedBrg (a.nel_r * br[i].n)
        (br[i].setTag (some (tagOr (if br[i].isSeal then "Seal " else "Bearing ") i br[i].tag))) l[i] := by
  obtain ⟨b, hb, hx⟩ := fromSection_ok.1 h
  obtain ⟨L, dk, br, -, -, -, h3, rfl⟩ := (args_iff hR).1 hb
  have e : r.bearings = sortBearings (tagBearings (br.map (scaleBrg a.nel_r))) := (init_ok hx).bearings
  refine ⟨br, tagBearings (br.map (scaleBrg a.nel_r)), h3, by rw [e]; exact List.mergeSort_perm _ _, ?_,
    by simp [tagBearings], ?_⟩
  · rw [e]
    have := List.pairwise_mergeSort (le := fun a b : BrgEl => decide (a.n ≤ b.n))
      (fun a b c h1 h2 => by simp at *; omega) (fun a b => by simp; omega)
      (tagBearings (br.map (scaleBrg a.nel_r)))
    simpa [sortBearings] using this
  · intro i hi hp
    simp only [tagBearings, List.getElem_mapIdx, List.getElem_map, scaleBrg_tag, scaleBrg_seal]
    cases br[i] with
    | brg s b =>
      cases htag : b.tag <;>
        simp [BrgEl.setTag, BrgEl.tag, BrgEl.base, scaleBrg, tagOr, defTag, htag, MovedBrg, BrgEl.n]
    | brg6 b =>
      cases htag : b.base.tag <;>
        simp [BrgEl.setTag, BrgEl.tag, BrgEl.base, scaleBrg, tagOr, defTag, htag, MovedBrg, BrgEl.n]

theorem init_rest {b : RotorArgs} (h : init pd fuel b = some (.ok r)) :
    r.min_w = b.min_w ∧ r.max_w = b.max_w ∧ r.rated_w = b.rated_w ∧ r.tag = b.tag.getD "Rotor 0" := by
  obtain ⟨r₀, rows, h1, -, h3⟩ := init_ok_build h
  obtain ⟨df, rfl⟩ := finish_ok h3
  unfold build at h1
  dsimp only at h1
  split_ifs at h1 with h2
  obtain ⟨nd, -, h4⟩ := bind_ok.1 h1
  unfold buildFrom at h4
  dsimp only at h4
  split_ifs at h4 with h5
  obtain ⟨_, -, h6⟩ := bind_ok.1 h4
  obtain ⟨_, -, h7⟩ := bind_ok.1 h6
  cases h7
  exact ⟨rfl, rfl, rfl, rfl⟩

/-- **C45** the speeds and the tag are passed on. -/
theorem C45_rest (hR : SectionsOf a R) (h : fromSection pd fuel a = some (.ok r)) :
    r.min_w = a.min_w ∧ r.max_w = a.max_w ∧ r.rated_w = a.rated_w ∧ r.tag = a.tag.getD "Rotor 0" ∧
      r.pms = [] := by
  obtain ⟨b, hb, hx⟩ := fromSection_ok.1 h
  obtain ⟨L, dk, br, -, -, -, -, rfl⟩ := (args_iff hR).1 hb
  obtain ⟨h1, h2, h3, h4⟩ := init_rest hx
  exact ⟨h1, h2, h3, h4, by rw [(init_ok hx).pms]; rfl⟩

/-- **C45** (unless `idr_data` is given without `odr_data`) a rotor is returned only for lists of
consistent lengths. -/
theorem C45_rejects_partial (h : fromSection pd fuel a = some (.ok r))
    (hid : a.idr_data = none ∨ a.odr_data.isSome) : ∃ R, SectionsOf a R := by
  obtain ⟨b, hb, hx⟩ := fromSection_ok.1 h
  obtain ⟨m, X, dk, br, ⟨c1, c2, c3, c4, c5⟩, -⟩ := sectionArgs_iff.1 hb
  have hid' : a.leng_data.length = (a.idr_data.getD a.idl_data).length := by
    rcases hid with h | h
    · rw [h]; exact c2
    · exact (c4 h).2
  have hod' : a.leng_data.length = (a.odr_data.getD a.odl_data).length := by
    cases ho : a.odr_data with
    | none => exact c1
    | some l => have := (c4 (by rw [ho]; rfl)).1; rwa [ho] at this
  have hm : ∃ f : ℕ → Material, (∀ ms, m = .many ms → ∀ i (hi : i < ms.length), f i = ms[i]) ∧
      ∀ x, m = .one x → ∀ i, f i = x := by
    cases m with
    | one x => exact ⟨fun _ => x, (by intro ms h; cases h), (by intro y h i; cases h; rfl)⟩
    | many ms =>
      refine ⟨fun i => ms.getD i exMaterial, ?_, by intro y h; cases h⟩
      intro ms' h i hi
      cases h
      simp [hi]
  obtain ⟨f, hf1, hf2⟩ := hm
  have hl : ∀ l : List ℝ, a.leng_data.length = l.length →
      l = (List.range a.leng_data.length).map fun i => l.getD i 0 := by
    intro l h
    refine List.ext_getElem (by simp [h]) fun i h1 h2 => ?_
    simp [h1]
  refine ⟨(List.range a.leng_data.length).map fun i => ⟨a.leng_data.getD i 0, a.idl_data.getD i 0,
    a.odl_data.getD i 0, (a.idr_data.getD a.idl_data).getD i 0, (a.odr_data.getD a.odl_data).getD i 0,
    f i⟩, ?_, ?_, ?_, ?_, ?_, ?_⟩
  · rw [List.map_map]; exact hl _ rfl
  · rw [List.map_map]; exact hl _ c2
  · rw [List.map_map]; exact hl _ c1
  · cases hi : a.idr_data with
    | none =>
      right
      refine ⟨rfl, fun g hg => ?_⟩
      obtain ⟨i, -, rfl⟩ := List.mem_map.1 hg
      rfl
    | some l =>
      left
      rw [hi] at hid'
      rw [List.map_map]; exact congrArg some (hl _ hid')
  · cases hi : a.odr_data with
    | none =>
      right
      refine ⟨rfl, fun g hg => ?_⟩
      obtain ⟨i, -, rfl⟩ := List.mem_map.1 hg
      rfl
    | some l =>
      left
      rw [hi] at hod'
      rw [List.map_map]; exact congrArg some (hl _ hod')
  · rw [c3]
    cases m with
    | one x =>
      right
      refine ⟨x, rfl, fun g hg => ?_⟩
      obtain ⟨i, -, rfl⟩ := List.mem_map.1 hg
      exact hf2 x rfl i
    | many ms =>
      left
      have h5 := c5 ms rfl
      rw [List.map_map]
      congr 2
      refine List.ext_getElem (by simp [h5]) fun i h1 h2 => ?_
      simp only [List.getElem_map, List.getElem_range, Function.comp]
      exact (hf1 ms rfl i h1).symm

/-- **C45** what is raised: `ValueError` for left diameters that do not match the lengths, then
`AttributeError` without a material, then `ValueError` for right diameters that do not match, then
`IndexError` for materials that do not match. -/
theorem C45_errors :
    ((a.odl_data.length ≠ a.leng_data.length ∨ a.idl_data.length ≠ a.leng_data.length) →
      fromSection pd fuel a = some (.error .valueError)) ∧
    (a.odl_data.length = a.leng_data.length → a.idl_data.length = a.leng_data.length →
      (a.material_data = none → fromSection pd fuel a = some (.error .attributeError)) ∧
      ∀ m, a.material_data = some m →
        (∀ odr, a.odr_data = some odr → (odr.length ≠ a.leng_data.length ∨
          ∃ idr, a.idr_data = some idr ∧ idr.length ≠ a.leng_data.length) →
          fromSection pd fuel a = some (.error .valueError)) ∧
        (a.odr_data = none → ∀ ms, m = .many ms → ms.length ≠ a.leng_data.length →
          fromSection pd fuel a = some (.error .indexError)) ∧
        (∀ odr, a.odr_data = some odr → odr.length = a.leng_data.length →
          (∀ idr, a.idr_data = some idr → idr.length = a.leng_data.length) →
          ∀ ms, m = .many ms → ms.length ≠ a.leng_data.length →
          fromSection pd fuel a = some (.error .indexError))) := by
  have herr : ∀ e, sectionArgs a = .error e → fromSection pd fuel a = some (.error e) := by
    intro e h; unfold fromSection; rw [h]
  refine ⟨fun h => herr _ ?_, fun h1 h2 => ⟨fun h3 => herr _ ?_, fun m h3 => ⟨fun odr h4 h5 => herr _ ?_,
    fun h4 ms h5 h6 => herr _ ?_, fun odr h4 h5 h6 ms h7 h8 => herr _ ?_⟩⟩⟩
  · unfold sectionArgs
    rw [if_pos (h.imp Ne.symm Ne.symm)]; rfl
  · unfold sectionArgs
    rw [if_neg (by rw [h1, h2]; simp), h3]; rfl
  · unfold sectionArgs
    rw [if_neg (by rw [h1, h2]; simp), h3]
    dsimp only
    rw [if_pos ⟨by rw [h4]; rfl, by
      rcases h5 with h | ⟨idr, h, h'⟩
      · left; rw [h4]; exact Ne.symm h
      · right; rw [h]; exact Ne.symm h'⟩]
    rfl
  · unfold sectionArgs
    subst h5
    rw [if_neg (by rw [h1, h2]; simp), h3]
    dsimp only
    rw [if_neg (by rw [h4]; simp), if_pos (Ne.symm h6)]
    rfl
  · unfold sectionArgs
    subst h7
    rw [if_neg (by rw [h1, h2]; simp), h3]
    dsimp only
    rw [if_neg (by
      rintro ⟨-, h | h⟩
      · rw [h4] at h; exact h h5.symm
      · cases hi : a.idr_data with
        | none => rw [hi] at h; exact h h2.symm
        | some idr => rw [hi] at h; exact h (h6 _ hi).symm), if_pos (Ne.symm h8)]
    rfl

/-- **C45** sections of positive length and wall are accepted, for every positive `nel_r`, with disks and
bearings on the ends of sections. -/
theorem C45_accepts (hpd : SortsRows pd) (hR : SectionsOf a R) (hne : R ≠ []) (hs : ∀ g ∈ R, g.Solid)
    (hk : a.nel_r ≠ 0) {dk : List DiskEl} {br : List BrgEl} (hdk : a.disk_data = some dk)
    (hbr : a.brg_seal_data = some br) (hd4 : ∀ e ∈ dk, e.six = false) (hb4 : ∀ b ∈ br, BrgSix false b)
    (hd : ∀ e ∈ dk, e.d.n ≤ R.length) (hb : ∀ b ∈ br, b.n ≤ R.length)
    (hn : (br.map BrgEl.n).Nodup) (ht : (sectionTags (a.nel_r * R.length) dk br).Nodup)
    (hf : br.length + 2 ≤ fuel) : ∃ r, fromSection pd fuel a = some (.ok r) := by
  have hk' : (0 : ℤ) < (a.nel_r : ℤ) := by exact_mod_cast Nat.pos_of_ne_zero hk
  obtain ⟨X, hX⟩ := mapM_ok_of (f := elems a.nel_r) (l := R) fun g hg => by
    have hg := hs g hg
    exact (C13_accepts (ne := a.nel_r) (n := none) (se := true) (ri := true) (gy := true) (alpha := 0)
      (beta := 0) g.material _ rfl ⟨hg.1, hg.2, hg.3, hg.4, hg.5, hg.6, hg.7, hg.8, hg.9⟩).1 hk'
  have hargs := (args_iff hR).2 ⟨X, dk, br, fun _ => hk, hX, hdk, hbr, rfl⟩
  obtain ⟨hlen, hget⟩ := mapM_get hX
  have hin : ∀ l ∈ X, l.length = a.nel_r := by
    intro l hl
    obtain ⟨i, hi, rfl⟩ := List.getElem_of_mem hl
    exact (elems_get hk (hget i (by omega) hi)).2.1
  have hel : ∀ s ∈ X.flatten, s.n = none ∧ s.tag = none ∧ 0 < s.L := by
    intro s hs'
    obtain ⟨l, hl, hs'⟩ := List.mem_flatten.1 hs'
    obtain ⟨i, hi, rfl⟩ := List.getElem_of_mem hl
    obtain ⟨j, hj, rfl⟩ := List.getElem_of_mem hs'
    obtain ⟨q1, q2, q3⟩ := (elems_get hk (hget i (by omega) hi)).2.2 j hj
    refine ⟨q1, q2, ?_⟩
    have := q3.length
    rw [show X[i][j].L = _ from this]
    exact div_pos (hs _ (List.getElem_mem _)).L_pos (by exact_mod_cast Nat.pos_of_ne_zero hk)
  have hfl : X.flatten.length = a.nel_r * R.length := by rw [flatten_length hin, hlen]
  have hsl := flatten_nest X.flatten
  have hw : WellFormed false (a.nel_r * R.length)
      { shaft := X.flatten.map fun s => Nest.el ⟨false, s⟩
        disks := dk.map (scaleDisk a.nel_r)
        bearings := br.map (scaleBrg a.nel_r)
        min_w := a.min_w, max_w := a.max_w, rated_w := a.rated_w, tag := a.tag } := by
    constructor
    · exact Nat.mul_pos (Nat.pos_of_ne_zero hk) (List.length_pos_iff.2 hne)
    · intro j
      unfold givenNodes shaftList
      dsimp only
      rw [hsl]
      have : (X.flatten.map fun s => (⟨false, s⟩ : ShaftEl)).mapIdx (fun i e => e.s.n.getD i) =
          List.range (a.nel_r * R.length) := by
        apply List.ext_getElem
        · simp only [List.length_mapIdx, List.length_map, hfl, List.length_range]
        · intro i h1 h2
          simp only [List.getElem_mapIdx, List.getElem_map, List.getElem_range]
          rw [(hel _ (List.getElem_mem _)).1]; rfl
      rw [this, List.mem_range]
    · unfold shaftList; dsimp only; rw [hsl]
      intro e he
      obtain ⟨s, hs', rfl⟩ := List.mem_map.1 he
      exact (hel s hs').2.2
    · unfold shaftList; dsimp only; rw [hsl]
      intro e he
      obtain ⟨s, hs', rfl⟩ := List.mem_map.1 he
      rfl
    · intro e he
      obtain ⟨d, hd', rfl⟩ := List.mem_map.1 he
      exact hd4 d hd'
    · intro c hc
      obtain ⟨d, hd', rfl⟩ := List.mem_map.1 hc
      rw [scaleBrg_six]
      exact hb4 d hd'
    · intro e he
      obtain ⟨d, hd', rfl⟩ := List.mem_map.1 he
      exact Nat.mul_le_mul_left _ (hd d hd')
    · show ((br.map (scaleBrg a.nel_r)).map BrgEl.n).Nodup
      rw [List.map_map, show BrgEl.n ∘ scaleBrg a.nel_r = (fun n => a.nel_r * n) ∘ BrgEl.n from
        funext fun b => scaleBrg_n _ b, ← List.map_map]
      exact hn.map fun i j hij => Nat.eq_of_mul_eq_mul_left (Nat.pos_of_ne_zero hk) hij
    · intro c hc
      obtain ⟨d, hd', rfl⟩ := List.mem_map.1 hc
      left; rw [scaleBrg_n]; exact Nat.mul_le_mul_left _ (hb d hd')
    · intro c hc hlt
      obtain ⟨d, hd', rfl⟩ := List.mem_map.1 hc
      rw [scaleBrg_n] at hlt
      exact absurd (Nat.mul_le_mul_left a.nel_r (hb d hd')) (by omega)
    · intro c hc c' _ hlt
      obtain ⟨d, hd', rfl⟩ := List.mem_map.1 hc
      rw [scaleBrg_n] at hlt
      exact absurd (Nat.mul_le_mul_left a.nel_r (hb d hd')) (by omega)
    · intro p hp; cases hp
    · unfold allTags shaftList
      dsimp only
      rw [hsl, List.mapIdx_nil, List.append_nil]
      have es : ((X.flatten.map fun s => (⟨false, s⟩ : ShaftEl)).mapIdx fun i e =>
          tagOr "ShaftElement " i e.s.tag) =
          (List.range (a.nel_r * R.length)).map fun i => "ShaftElement " ++ toString i := by
        apply List.ext_getElem
        · simp only [List.length_mapIdx, List.length_map, hfl, List.length_range]
        · intro i h1 h2
          simp only [List.getElem_mapIdx, List.getElem_map, List.getElem_range]
          rw [(hel _ (List.getElem_mem _)).2.1]; rfl
      have ed : ((dk.map (scaleDisk a.nel_r)).mapIdx fun i e => tagOr "Disk " i e.d.tag) =
          dk.mapIdx fun i e => tagOr "Disk " i e.d.tag := by
        apply List.ext_getElem <;> simp [scaleDisk]
      have eb : ((br.map (scaleBrg a.nel_r)).mapIdx fun i b =>
          tagOr (if b.isSeal then "Seal " else "Bearing ") i b.tag) =
          br.mapIdx fun i b => tagOr (if b.isSeal then "Seal " else "Bearing ") i b.tag := by
        apply List.ext_getElem <;> simp [scaleBrg_tag, scaleBrg_seal]
      rw [es, ed, eb]
      exact ht
  obtain ⟨r, hr, -⟩ := accepts hpd hw (fuel := fuel) (by simpa using hf)
  exact ⟨r, fromSection_ok.2 ⟨_, hargs, hr⟩⟩

/-- Two sections, the first conical, with a disk between them. -/
noncomputable def exSections : List Region :=
  [⟨1, 0, 1 / 10, 0, 1 / 5, exMaterial⟩, ⟨1 / 2, 0, 1 / 5, 0, 1 / 5, exMaterial⟩]

noncomputable def exSectionArgs : SectionArgs where
  leng_data := [1, 1 / 2]
  idl_data := [0, 0]
  odl_data := [1 / 10, 1 / 5]
  odr_data := some [1 / 5, 1 / 5]
  material_data := some (.one exMaterial)
  disk_data := some [⟨false, ⟨1, 30, 1, 2, none, 1, ""⟩⟩]
  brg_seal_data := some [.brg false (exBrg 0 none 1e6 100), .brg false (exBrg 2 none 1e6 100)]
  nel_r := 3

theorem exSections_of : SectionsOf exSectionArgs exSections where
  leng := rfl
  idl := rfl
  odl := rfl
  idr := .inr ⟨rfl, by simp [exSections]⟩
  odr := .inl rfl
  material := .inr ⟨exMaterial, rfl, by simp [exSections]⟩

theorem exSections_solid : ∀ g ∈ exSections, g.Solid := by
  intro g hg
  simp only [exSections, List.mem_cons, List.not_mem_nil, or_false] at hg
  rcases hg with rfl | rfl <;> constructor <;> norm_num [exMaterial]

/-- Non-vacuity: a shaft with a conical and a cylindrical section, three elements each. -/
theorem exSection_rotor : ∃ r, fromSection exPandas 10 exSectionArgs = some (.ok r) := by
  refine C45_accepts exPandas_sorts exSections_of (by simp [exSections]) exSections_solid
    (by simp [exSectionArgs]) rfl rfl ?_ ?_ ?_ ?_ ?_ ?_ (by simp)
  · simp
  · intro b hb
    simp only [List.mem_cons, List.not_mem_nil, or_false] at hb
    rcases hb with rfl | rfl <;> rfl
  · simp [exSections]
  · intro b hb
    simp only [List.mem_cons, List.not_mem_nil, or_false] at hb
    rcases hb with rfl | rfl <;> simp [BrgEl.n, BrgEl.base, exBrg, exSections]
  · simp [BrgEl.n, BrgEl.base, exBrg]
  · show (sectionTags 6 _ _).Nodup
    decide

/-- Non-vacuity of the theorems above. -/
example : ∃ r, fromSection exPandas 10 exSectionArgs = some (.ok r) ∧ r.shaft.length = 6 ∧
    r.L = 3 / 2 := by
  obtain ⟨r, h⟩ := exSection_rotor
  refine ⟨r, h, (C45_tiles exSections_of h).1, ?_⟩
  rw [(C45_positions exSections_of (by simp [exSections]) h).2.2]
  norm_num [exSections]

/-- **C45** is false for `idr_data` given without `odr_data`: its length is not checked, and what is
left over is ignored. -/
theorem C45_lengths_false : ∃ (a : SectionArgs) (r : Rotor),
    fromSection exPandas 10 a = some (.ok r) ∧ a.idr_data = some [0, 0, 5] ∧ a.leng_data.length = 2 ∧
      ¬ ∃ R, SectionsOf a R := by
  set a : SectionArgs := { exSectionArgs with
    odr_data := none
    idr_data := some [0, 0, 5] } with ha
  set c : SectionArgs := { exSectionArgs with
    odr_data := none
    idr_data := some [0, 0] } with hc
  set S : List Region :=
    [⟨1, 0, 1 / 10, 0, 1 / 10, exMaterial⟩, ⟨1 / 2, 0, 1 / 5, 0, 1 / 5, exMaterial⟩] with hS
  have hof : SectionsOf c S :=
    ⟨rfl, rfl, rfl, .inl rfl, .inr ⟨rfl, by simp [hS]⟩, .inr ⟨exMaterial, rfl, by simp [hS]⟩⟩
  have hsol : ∀ g ∈ S, g.Solid := by
    intro g hg
    simp only [hS, List.mem_cons, List.not_mem_nil, or_false] at hg
    rcases hg with rfl | rfl <;> constructor <;> norm_num [exMaterial]
  obtain ⟨r, hr⟩ : ∃ r, fromSection exPandas 10 c = some (.ok r) := by
    refine C45_accepts exPandas_sorts hof (by simp [hS]) hsol
      (by simp [hc, exSectionArgs]) rfl rfl ?_ ?_ ?_ ?_ ?_ ?_ (by simp)
    · simp
    · intro b hb
      simp only [List.mem_cons, List.not_mem_nil, or_false] at hb
      rcases hb with rfl | rfl <;> rfl
    · simp [hS]
    · intro b hb
      simp only [List.mem_cons, List.not_mem_nil, or_false] at hb
      rcases hb with rfl | rfl <;> simp [BrgEl.n, BrgEl.base, exBrg, hS]
    · simp [BrgEl.n, BrgEl.base, exBrg]
    · show (sectionTags 6 _ _).Nodup
      decide
  have e : sectionArgs a = sectionArgs c := rfl
  refine ⟨a, r, ?_, rfl, rfl, ?_⟩
  · rw [← hr]; unfold fromSection; rw [e]
  · rintro ⟨R, h⟩
    have h1 := congrArg List.length h.leng
    rcases h.idr with h2 | ⟨h2, -⟩
    · have h3 := congrArg List.length (Option.some.inj h2)
      simp [ha, exSectionArgs] at h1 h3
      omega
    · cases h2

/-- **C45** `disk_data` and `brg_seal_data` have default `None` and are called optional, but a call
without one of them never returns a rotor, although the same call with empty lists may. -/
theorem C45_optional_false (h : a.disk_data = none ∨ a.brg_seal_data = none) :
    (∃ e, fromSection pd fuel a = some (.error e)) ∧
    ∃ c : SectionArgs, c.disk_data = none ∧
      ∃ r, fromSection exPandas 10 { c with disk_data := some [] } = some (.ok r) := by
  constructor
  · cases hs : sectionArgs a with
    | error e => exact ⟨e, by unfold fromSection; rw [hs]⟩
    | ok b =>
      obtain ⟨_, _, dk, br, -, -, h1, h2, -⟩ := sectionArgs_iff.1 hs
      rcases h with h | h
      · rw [h1] at h; cases h
      · rw [h2] at h; cases h
  · refine ⟨{ exSectionArgs with disk_data := none }, rfl, ?_⟩
    refine C45_accepts exPandas_sorts (R := exSections) ⟨rfl, rfl, rfl, .inr ⟨rfl, by simp [exSections]⟩,
      .inl rfl, .inr ⟨exMaterial, rfl, by simp [exSections]⟩⟩ (by simp [exSections]) exSections_solid
      (by simp [exSectionArgs]) rfl rfl ?_ ?_ ?_ ?_ ?_ ?_ (by simp)
    · simp
    · intro b hb
      simp only [List.mem_cons, List.not_mem_nil, or_false] at hb
      rcases hb with rfl | rfl <;> rfl
    · simp
    · intro b hb
      simp only [List.mem_cons, List.not_mem_nil, or_false] at hb
      rcases hb with rfl | rfl <;> simp [BrgEl.n, BrgEl.base, exBrg, exSections]
    · simp [BrgEl.n, BrgEl.base, exBrg]
    · show (sectionTags 6 _ _).Nodup
      decide

end Ross.Props
