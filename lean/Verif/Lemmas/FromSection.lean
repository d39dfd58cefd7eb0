import Verif.Spec.FromSection
import Verif.Lemmas.Convergence
import Verif.Props.Section

/-! # Lemmas on `Rotor.from_section` -/

namespace Ross.FromSectionLemmas

open Ross Ross.Spec Ross.RotorLemmas Ross.BearingLemmas Ross.ConvLemmas Ross.ShaftLemmas Ross.Props
  Rotor

/-- The checks on the lists of the call. -/
def Checked (a : SectionArgs) (m : MaterialData) : Prop :=
  a.leng_data.length = a.odl_data.length ∧ a.leng_data.length = a.idl_data.length ∧
  a.material_data = some m ∧
  (a.odr_data.isSome → a.leng_data.length = (a.odr_data.getD a.odl_data).length ∧
    a.leng_data.length = (a.idr_data.getD a.idl_data).length) ∧
  ∀ ms, m = .many ms → a.leng_data.length = ms.length

theorem sectionArgs_iff {a : SectionArgs} {b : RotorArgs} : sectionArgs a = .ok b ↔
    ∃ (m : MaterialData) (X : List (List ShaftElement)) (dk : List DiskEl) (br : List BrgEl), Checked a m ∧
      a.leng_data.zipIdx.mapM (fun p => regionElems a.nel_r a.idl_data a.odl_data
        (a.idr_data.getD a.idl_data) (a.odr_data.getD a.odl_data) m p.2 p.1) = .ok X ∧
      a.disk_data = some dk ∧ a.brg_seal_data = some br ∧
      b = { shaft := X.flatten.map fun s => Nest.el ⟨false, s⟩
            disks := dk.map (scaleDisk a.nel_r)
            bearings := br.map (scaleBrg a.nel_r)
            min_w := a.min_w, max_w := a.max_w, rated_w := a.rated_w, tag := a.tag } := by
  unfold sectionArgs Checked
  obtain ⟨le, il, ol, ir, or, md, dd, bd, w1, w2, w3, k, tg⟩ := a
  dsimp only
  by_cases h1 : le.length ≠ ol.length ∨ le.length ≠ il.length
  · rw [if_pos h1]
    constructor
    · intro h; cases h
    · rintro ⟨_, _, _, _, ⟨h2, h3, _⟩, _⟩
      rcases h1 with h | h <;> contradiction
  rw [if_neg h1]
  push Not at h1
  cases md with
  | none =>
    constructor
    · intro h; cases h
    · rintro ⟨_, _, _, _, ⟨_, _, h3, _⟩, _⟩; cases h3
  | some m =>
    simp only [Option.some.injEq]
    by_cases h2 : or.isSome = true ∧ (le.length ≠ (or.getD ol).length ∨ le.length ≠ (ir.getD il).length)
    · rw [if_pos h2]
      constructor
      · intro h; cases h
      · rintro ⟨_, _, _, _, ⟨_, _, _, h3, _⟩, _⟩
        have := h3 h2.1
        rcases h2.2 with h | h
        · exact absurd this.1 h
        · exact absurd this.2 h
    rw [if_neg h2]
    push Not at h2
    have hgo : ∀ m : MaterialData, ((do
        let regions ← le.zipIdx.mapM fun p => regionElems k il ol (ir.getD il) (or.getD ol) m p.2 p.1
        let disks ← match dd with
          | none => throw PyErr.typeError
          | some l => pure (l.map (scaleDisk k))
        let bearings ← match bd with
          | none => throw PyErr.typeError
          | some l => pure (l.map (scaleBrg k))
        pure
          { shaft := regions.flatten.map fun s => Nest.el ⟨false, s⟩
            disks := disks
            bearings := bearings
            min_w := w1, max_w := w2, rated_w := w3, tag := tg } : Res RotorArgs) = .ok b) ↔
        ∃ (X : List (List ShaftElement)) (dk : List DiskEl) (br : List BrgEl),
          le.zipIdx.mapM (fun p => regionElems k il ol (ir.getD il) (or.getD ol) m p.2 p.1) = .ok X ∧
          dd = some dk ∧ bd = some br ∧
          b = { shaft := X.flatten.map fun s => Nest.el ⟨false, s⟩
                disks := dk.map (scaleDisk k)
                bearings := br.map (scaleBrg k)
                min_w := w1, max_w := w2, rated_w := w3, tag := tg } := by
      intro m
      constructor
      · intro h
        obtain ⟨X, hX, h⟩ := bind_ok.1 h
        cases dd with
        | none => cases h
        | some dk =>
          cases bd with
          | none => cases h
          | some br =>
            cases h
            exact ⟨X, dk, br, hX, rfl, rfl, rfl⟩
      · rintro ⟨X, dk, br, hX, rfl, rfl, rfl⟩
        exact bind_ok.2 ⟨X, hX, rfl⟩
    cases m with
    | one m =>
      refine (hgo (.one m)).trans ⟨?_, ?_⟩
      · rintro ⟨X, dk, br, h3, h4, h5, h6⟩
        exact ⟨.one m, X, dk, br, ⟨h1.1, h1.2, rfl, h2, fun _ h => by cases h⟩, h3, h4, h5, h6⟩
      · rintro ⟨_, X, dk, br, ⟨_, _, rfl, _⟩, h3, h4, h5, h6⟩
        exact ⟨X, dk, br, h3, h4, h5, h6⟩
    | many ms =>
      by_cases h3 : le.length ≠ ms.length
      · simp only [if_pos h3]
        constructor
        · intro h; cases h
        · rintro ⟨_, _, _, _, ⟨_, _, rfl, _, h4⟩, _⟩
          exact absurd (h4 _ rfl) h3
      · simp only [if_neg h3]
        push Not at h3
        refine (hgo (.many ms)).trans ⟨?_, ?_⟩
        · rintro ⟨X, dk, br, h4, h5, h6, h7⟩
          exact ⟨.many ms, X, dk, br, ⟨h1.1, h1.2, rfl, h2, fun _ h => by cases h; exact h3⟩, h4, h5, h6, h7⟩
        · rintro ⟨_, X, dk, br, ⟨_, _, rfl, _⟩, h4, h5, h6, h7⟩
          exact ⟨X, dk, br, h4, h5, h6, h7⟩

theorem fromSection_ok {pd : Pandas} {fuel : ℕ} {a : SectionArgs} {r : Rotor} :
    fromSection pd fuel a = some (.ok r) ↔
      ∃ b, sectionArgs a = .ok b ∧ init pd fuel b = some (.ok r) := by
  unfold fromSection
  cases h : sectionArgs a with
  | error e => simp
  | ok b => simp

theorem listItem_ok {α : Type} {l : List α} {i : ℕ} {x : α} : listItem l i = .ok x ↔ l[i]? = some x := by
  unfold listItem
  cases l[i]? <;> simp

theorem region_iff {k : ℕ} {il ol ir or : List ℝ} {m : MaterialData} {i : ℕ} {le : ℝ}
    {X : List ShaftElement} : regionElems k il ol ir or m i le = .ok X ↔ k ≠ 0 ∧
      ∃ b a d c mat, ir[i]? = some b ∧ il[i]? = some a ∧ or[i]? = some d ∧ ol[i]? = some c ∧
        m.at i = .ok mat ∧ ShaftElement.sectionElems le k a c (some b) (some d) (some mat) none true true
          true 0 0 = .ok X := by
  unfold regionElems
  by_cases hk : k = 0
  · rw [if_pos hk]
    constructor
    · intro h; cases h
    · rintro ⟨h, -⟩; exact absurd hk h
  · rw [if_neg hk]
    show (listItem ir i >>= _) = _ ↔ _
    constructor
    · intro h
      obtain ⟨b, hb, h⟩ := bind_ok.1 h
      obtain ⟨a, ha, h⟩ := bind_ok.1 h
      obtain ⟨d, hd, h⟩ := bind_ok.1 h
      obtain ⟨c, hc, h⟩ := bind_ok.1 h
      obtain ⟨mat, hm, h⟩ := bind_ok.1 h
      exact ⟨hk, b, a, d, c, mat, listItem_ok.1 hb, listItem_ok.1 ha, listItem_ok.1 hd,
        listItem_ok.1 hc, hm, h⟩
    · rintro ⟨-, b, a, d, c, mat, hb, ha, hd, hc, hm, h⟩
      exact bind_ok.2 ⟨b, listItem_ok.2 hb, bind_ok.2 ⟨a, listItem_ok.2 ha, bind_ok.2
        ⟨d, listItem_ok.2 hd, bind_ok.2 ⟨c, listItem_ok.2 hc, bind_ok.2 ⟨mat, hm, h⟩⟩⟩⟩⟩

/-- The elements of one region. -/
noncomputable def elems (k : ℕ) (g : Region) : Res (List ShaftElement) :=
  ShaftElement.sectionElems g.L k g.idl g.odl (some g.idr) (some g.odr) (some g.material) none true true
    true 0 0

theorem described {a : SectionArgs} {R : List Region} (h : SectionsOf a R) :
    ∃ m, Checked a m ∧ ∀ i (hi : i < R.length), a.leng_data[i]? = some R[i].L ∧
      (a.idr_data.getD a.idl_data)[i]? = some R[i].idr ∧ a.idl_data[i]? = some R[i].idl ∧
      (a.odr_data.getD a.odl_data)[i]? = some R[i].odr ∧ a.odl_data[i]? = some R[i].odl ∧
      m.at i = .ok R[i].material := by
  obtain ⟨h1, h2, h3, h4, h5, h6⟩ := h
  have e1 : ∀ f : Region → ℝ, ∀ i (hi : i < R.length), (R.map f)[i]? = some (f R[i]) := by
    intro f i hi
    rw [List.getElem?_map, List.getElem?_eq_getElem hi]; rfl
  have e4 : a.idr_data.getD a.idl_data = R.map Region.idr := by
    rcases h4 with h | ⟨h, h'⟩
    · rw [h]; rfl
    · rw [h, h2]; exact List.map_congr_left fun g hg => (h' g hg).symm
  have e5 : a.odr_data.getD a.odl_data = R.map Region.odr := by
    rcases h5 with h | ⟨h, h'⟩
    · rw [h]; rfl
    · rw [h, h3]; exact List.map_congr_left fun g hg => (h' g hg).symm
  have hch : ∀ m, a.material_data = some m → (∀ ms, m = .many ms → a.leng_data.length = ms.length) →
      Checked a m := fun m hm hms =>
    ⟨by rw [h1, h3]; simp, by rw [h1, h2]; simp, hm, fun _ => by rw [e4, e5, h1]; simp, hms⟩
  rcases h6 with h6 | ⟨m, h6, h7⟩
  · refine ⟨.many (R.map Region.material), hch _ h6 ?_, fun i hi => ?_⟩
    · intro ms hms
      cases hms; rw [h1]; simp
    · rw [e4, e5, h1, h2, h3]
      refine ⟨e1 _ i hi, e1 _ i hi, e1 _ i hi, e1 _ i hi, e1 _ i hi, ?_⟩
      show listItem _ _ = _
      rw [listItem_ok, List.getElem?_map, List.getElem?_eq_getElem hi]; rfl
  · refine ⟨.one m, hch _ h6 fun _ h => by (cases h), fun i hi => ?_⟩
    rw [e4, e5, h1, h2, h3]
    refine ⟨e1 _ i hi, e1 _ i hi, e1 _ i hi, e1 _ i hi, e1 _ i hi, ?_⟩
    show Except.ok m = _
    rw [h7 _ (List.getElem_mem hi)]

/-- The arguments passed on when the lists describe regions. -/
theorem args_iff {a : SectionArgs} {R : List Region} (h : SectionsOf a R) {b : RotorArgs} :
    sectionArgs a = .ok b ↔ ∃ (X : List (List ShaftElement)) (dk : List DiskEl) (br : List BrgEl),
      (R ≠ [] → a.nel_r ≠ 0) ∧ R.mapM (elems a.nel_r) = .ok X ∧
      a.disk_data = some dk ∧ a.brg_seal_data = some br ∧
      b = { shaft := X.flatten.map fun s => Nest.el ⟨false, s⟩
            disks := dk.map (scaleDisk a.nel_r)
            bearings := br.map (scaleBrg a.nel_r)
            min_w := a.min_w, max_w := a.max_w, rated_w := a.rated_w, tag := a.tag } := by
  obtain ⟨m, hm, hR⟩ := described h
  have hmm : ∀ m', Checked a m' → m' = m := fun m' h' => by
    have := hm.2.2.1; rw [h'.2.2.1] at this; exact Option.some.inj this
  have hlen : a.leng_data.length = R.length := by rw [h.leng]; simp
  have hmap : ∀ X : List (List ShaftElement), a.leng_data.zipIdx.mapM (fun p => regionElems a.nel_r
      a.idl_data a.odl_data (a.idr_data.getD a.idl_data) (a.odr_data.getD a.odl_data) m p.2 p.1) = .ok X ↔
      (R ≠ [] → a.nel_r ≠ 0) ∧ R.mapM (elems a.nel_r) = .ok X := by
    intro X
    rw [mapM_ok_iff, mapM_ok_iff]
    have key : ∀ i (hi : i < R.length) x, regionElems a.nel_r
      a.idl_data a.odl_data (a.idr_data.getD a.idl_data) (a.odr_data.getD a.odl_data) m i R[i].L = .ok x ↔
        a.nel_r ≠ 0 ∧ elems a.nel_r R[i] = .ok x := by
      intro i hi x
      obtain ⟨-, g1, g2, g3, g4, g5⟩ := hR i hi
      rw [region_iff]
      simp only [g1, g2, g3, g4, g5, Option.some.injEq, Except.ok.injEq]
      refine and_congr_right fun _ => ⟨?_, fun h => ⟨_, _, _, _, _, rfl, rfl, rfl, rfl, rfl, h⟩⟩
      rintro ⟨_, _, _, _, _, rfl, rfl, rfl, rfl, rfl, h⟩
      exact h
    constructor
    · intro h
      have hl : X.length = R.length := by simpa [hlen] using (congrArg List.length h).symm
      have hi : ∀ i (hi : i < R.length), a.nel_r ≠ 0 ∧ elems a.nel_r R[i] = .ok (X[i]'(by omega)) := by
        intro i hi
        have := congrArg (fun l => l[i]?) h
        simp only [List.getElem?_map, List.getElem?_zipIdx, (hR i hi).1, Option.map_some,
          List.getElem?_eq_getElem (by omega : i < X.length), Option.some.injEq, Nat.zero_add] at this
        exact (key i hi _).1 this
      refine ⟨fun hne => (hi 0 (List.length_pos_iff.2 hne)).1, List.ext_getElem (by simp [hl]) ?_⟩
      intro i h1 h2
      simp only [List.getElem_map]
      exact (hi i (by simpa using h1)).2
    · rintro ⟨hne, h⟩
      have hl : X.length = R.length := by simpa using (congrArg List.length h).symm
      refine List.ext_getElem (by simp [hl, hlen]) fun i h1 h2 => ?_
      have hi : i < R.length := by simpa [hl] using h2
      have := congrArg (fun l => l[i]?) h
      simp only [List.getElem?_map, List.getElem?_eq_getElem hi, Option.map_some,
          List.getElem?_eq_getElem (by omega : i < X.length), Option.some.injEq] at this
      have hle : a.leng_data[i]'(by omega) = R[i].L := by
        have := (hR i hi).1
        rw [List.getElem?_eq_getElem (by omega)] at this
        exact Option.some.inj this
      simp only [List.getElem_map, List.getElem_zipIdx, hle, Nat.zero_add]
      exact (key i hi _).2 ⟨hne (List.ne_nil_of_length_pos (by omega)), this⟩
  rw [sectionArgs_iff]
  constructor
  · rintro ⟨m', X, dk, br, hm', h1, h2, h3, h4⟩
    obtain rfl := hmm _ hm'
    exact ⟨X, dk, br, ((hmap X).1 h1).1, ((hmap X).1 h1).2, h2, h3, h4⟩
  · rintro ⟨X, dk, br, h0, h1, h2, h3, h4⟩
    exact ⟨m, X, dk, br, hm, (hmap X).2 ⟨h0, h1⟩, h2, h3, h4⟩

theorem elems_get {k : ℕ} (hk : k ≠ 0) {g : Region} {X : List ShaftElement} (h : elems k g = .ok X) :
    g.L ≠ 0 ∧ X.length = k ∧ ∀ j (hj : j < X.length), X[j].n = none ∧ X[j].tag = none ∧
      Slice k j g ⟨false, X[j]⟩ := by
  have hk' : (0 : ℤ) < (k : ℤ) := by exact_mod_cast Nat.pos_of_ne_zero hk
  obtain ⟨hL, hl, he⟩ := section_elems h hk'
  refine ⟨hL, by simpa using hl, fun j hj => ?_⟩
  obtain ⟨t1, t2, t3, t4⟩ := C13_taper h hk' j hj
  have := he j hj
  unfold ShaftElement.sectionElem at this
  obtain ⟨h1, -, -, -, -, h6, h7, h8, h9, h10, h11, h12, h13, h14, h15, h16⟩ := init_attrs this
  push_cast at h1 t1 t2 t3 t4
  exact ⟨h7, h14, ⟨rfl, h1, t1, t2, t3, t4, Option.some.inj h6, h10, h11, h12, h8, h9, h15, h16, h13⟩⟩

/-- The shaft of the rotor. -/
theorem section_shaft {pd : Pandas} {fuel : ℕ} {a : SectionArgs} {R : List Region} {r : Rotor}
    (hR : SectionsOf a R) (h : fromSection pd fuel a = some (.ok r)) :
    r.shaft.length = a.nel_r * R.length ∧ SingleLayer r.shaft ∧
    (∀ i (hi : i < R.length) j (_ : j < a.nel_r), ∃ hp : a.nel_r * i + j < r.shaft.length,
      Slice a.nel_r j R[i] r.shaft[a.nel_r * i + j] ∧
      r.shaft[a.nel_r * i + j].s.n = some (a.nel_r * i + j) ∧
      r.shaft[a.nel_r * i + j].s.tag = some ("ShaftElement " ++ toString (a.nel_r * i + j))) ∧
    ∃ X, R.mapM (elems a.nel_r) = .ok X ∧ (R ≠ [] → a.nel_r ≠ 0) ∧
      r.shaft.map (fun e => e.s.m) = (X.flatten.map fun s => s.m) := by
  obtain ⟨b, hb, hx⟩ := fromSection_ok.1 h
  obtain ⟨L, dk, br, hk, hL, h2, h3, rfl⟩ := (args_iff hR).1 hb
  set k := a.nel_r with hkdef
  obtain ⟨hlen, hget⟩ := mapM_get hL
  have hk0 : ∀ i, i < L.length → k ≠ 0 := fun i hi => hk (List.ne_nil_of_length_pos (by omega))
  have hin : ∀ l ∈ L, l.length = k := by
    intro l hl
    obtain ⟨i, hi, rfl⟩ := List.getElem_of_mem hl
    exact (elems_get (hk0 i hi) (hget i (by omega) hi)).2.1
  have hnone : ∀ e ∈ L.flatten.map (fun s => (⟨false, s⟩ : ShaftEl)), e.s.n = none := by
    intro e he
    obtain ⟨s, hs, rfl⟩ := List.mem_map.1 he
    obtain ⟨l, hl, hs⟩ := List.mem_flatten.1 hs
    obtain ⟨i, hi, rfl⟩ := List.getElem_of_mem hl
    obtain ⟨j, hj, rfl⟩ := List.getElem_of_mem hs
    exact ((elems_get (hk0 i hi) (hget i (by omega) hi)).2.2 j hj).1
  have hsh : r.shaft = numberShaft (L.flatten.map fun s => (⟨false, s⟩ : ShaftEl)) := by
    rw [(init_ok hx).shaft]
    show sortShaft (numberShaft (Nest.flattenAll _)) = _
    rw [flatten_nest, sort_numbered hnone]
  have hlsh : r.shaft.length = k * R.length := by
    rw [hsh, numberShaft, List.length_mapIdx, List.length_map, flatten_length hin, hlen]
  refine ⟨hlsh, ?_, ?_, L, hL, hk, ?_⟩
  · rw [hsh]; exact chain_numbered hnone
  · intro i hi j hj
    have hp : k * i + j < r.shaft.length := by
      rw [hlsh]
      have : k * (i + 1) ≤ k * R.length := Nat.mul_le_mul_left _ hi
      rw [Nat.mul_succ] at this; omega
    have hiL : i < L.length := by omega
    have hl := hin _ (List.getElem_mem hiL)
    obtain ⟨q1, q2, q3⟩ := (elems_get (hk0 i hiL) (hget i hi hiL)).2.2 j (by omega)
    have h1 := flatten_get hin hiL hj
    rw [List.getElem?_eq_getElem (by omega : j < L[i].length)] at h1
    have h2 : r.shaft[k * i + j]? = some (⟨false, { L[i][j] with
          n := some (k * i + j), tag := some ("ShaftElement " ++ toString (k * i + j)) }⟩ : ShaftEl) := by
      rw [hsh, numberShaft, List.getElem?_mapIdx, List.getElem?_map, h1]
      simp [q1, q2, defTag]
    rw [List.getElem?_eq_getElem hp, Option.some_inj] at h2
    refine ⟨hp, ?_⟩
    rw [h2]
    exact ⟨⟨rfl, q3.2, q3.3, q3.4, q3.5, q3.6, q3.7, q3.8, q3.9, q3.10, q3.11⟩, rfl, rfl⟩
  · rw [hsh, numberShaft]
    apply List.ext_getElem
    · simp only [List.length_map, List.length_mapIdx]
    · intro i h1 h2
      simp only [List.getElem_map, List.getElem_mapIdx]
      rfl

end Ross.FromSectionLemmas
