import Verif.Lemmas.FromTable
import Verif.Props.ShaftGeometry

/-!
# C109: elements read from tables

`shafts lib sheet sheet_type`, `bearing sp sheet n`, `tableToToml sp sheet n` and `disks sheet` are the elements that
`ShaftElement.from_table`, `BearingElement.from_table`, `BearingElement.table_to_toml` and `DiskElement.from_table` return
for a sheet.
-/

namespace Ross.Props

open Spec Tables FromTable FromTableLemmas RunLemmas

/-- The material with this name. -/
theorem material_row {sheet : Sheet} {n : ℕ} {d : Dict String TableParam} (h : readTable sheet (.shaft true) n = .ok d) :
    ∃ mhdr mrows, IsMaterials sheet mhdr mrows ∧ ∀ ms, FromTable.materials d = .ok ms → ∀ s m, ms.get? s = some m →
      m.name = s ∧ ∃ (q : ℕ) (r : List Cell), mrows[q]? = some r ∧ MaterialRow sheet mhdr r m ∧
        ∀ q' > q, ∀ r' : List Cell, mrows[q']? = some r' → ¬ Calls mhdr r' s := by
  obtain ⟨mhdr, mrows, no, rho, e, g, color, h1, ⟨j1, t1, f1⟩, ⟨j2, t2, f2⟩, ⟨j3, t3, f3⟩, ⟨j4, t4, f4⟩, h6, e1, e2, e3, e4, e5⟩ :=
    C33_materials_partial sheet n d h
  refine ⟨mhdr, mrows, h1, fun ms hm s m hs => ?_⟩
  obtain ⟨no', g1, hm⟩ := bindOk hm
  rw [listOf, e1] at g1
  cases g1
  obtain ⟨l, g2, hm⟩ := bindOk hm
  cases hm
  obtain ⟨hl, hget⟩ := mapM_get g2
  have hlen : mrows.length = no.length := f1.length_eq
  rw [List.length_range] at hl
  -- what row `q` gives
  have key : ∀ (q : ℕ) (x : String × Material), l[q]? = some x → ∃ r, mrows[q]? = some r ∧ MaterialRow sheet mhdr r x.2 ∧
      x.2.name = x.1 := by
    intro q x hx
    have hq : q < no.length := hl ▸ (List.getElem?_eq_some_iff.1 hx).1
    have hq' : q < mrows.length := hlen ▸ hq
    have hne : mrows ≠ [] := fun h0 => by rw [h0] at hq'; simp at hq'
    have hx' := hget q q x (by rw [List.getElem?_range hq]) hx
    have col : ∀ {k : String} {vs : List PVal} {v : PVal}, d.get? k = some (.list vs) → entry d k q = .ok v → vs[q]? = some v := by
      intro k vs v hk hv
      obtain ⟨l', a, b⟩ := entry_ok hv
      rw [listOf, hk] at a
      cases a
      exact b
    have at2 : ∀ {P : Cell → PVal → Prop} {j : ℕ} {vs : List PVal} {v : PVal},
        List.Forall₂ (fun r v => P (r.getD j .blank) v) mrows vs → vs[q]? = some v → P (mrows[q].getD j .blank) v := by
      intro P j vs v hf hv
      obtain ⟨hv1, rfl⟩ := List.getElem?_eq_some_iff.1 hv
      exact List.Forall₂.get hf hq' hv1
    obtain ⟨v1, a1, hx'⟩ := bindOk hx'
    obtain ⟨z, a2, hx'⟩ := bindOk hx'
    obtain ⟨ρ, a3, hx'⟩ := bindOk hx'
    obtain ⟨E, a4, hx'⟩ := bindOk hx'
    obtain ⟨G, a5, hx'⟩ := bindOk hx'
    obtain ⟨vc, a6, hx'⟩ := bindOk hx'
    obtain ⟨c, a7, hx'⟩ := bindOk hx'
    obtain ⟨mm, a8, hx'⟩ := bindOk hx'
    cases hx'
    obtain ⟨b1, b2, b3, b4, b5, b6, b7⟩ := material_init a8
    obtain ⟨x, y1, y2⟩ := at2 (P := fun c v => ∃ x, numberIn c = some x ∧ v = PVal.num (intPart x)) f1 (col e1 a1)
    subst y2
    rw [toInt_int] at a2
    cases a2
    refine ⟨mrows[q], List.getElem?_eq_getElem hq', ⟨⟨j1, x, t1 hne, y1, b1⟩, ⟨j2, t2 hne, ?_⟩, ⟨j3, t3 hne, ?_⟩,
      ⟨j4, t4 hne, ?_⟩, b6, b7, ?_⟩, b1⟩
    · rw [b2]
      exact at2 f2 (col e2 (numberAt_ok a3))
    · rw [b3]
      exact at2 f3 (col e3 (numberAt_ok a4))
    · rw [b4]
      exact at2 f4 (col e4 (numberAt_ok a5))
    · have hc : vc = .str c := by
        cases vc <;> cases a7
        rfl
      subst hc
      have hvc := col e5 a6
      rcases h6 with ⟨j, hj, hf⟩ | ⟨hj, rfl⟩
      · left
        refine ⟨j, hj, ?_⟩
        rw [b5]
        exact at2 hf hvc
      · right
        refine ⟨hj, ?_⟩
        have := (List.getElem?_eq_some_iff.1 hvc).2
        rw [List.getElem_replicate] at this
        cases this
        exact b5
  obtain ⟨q, y1, y2⟩ := fold_get hs
  obtain ⟨r, z1, z2, z3⟩ := key q _ y1
  refine ⟨z3, q, r, z1, z2, fun q' hq' r' hr' hc => ?_⟩
  have hq2 : q' < l.length := by
    rw [hl, ← hlen]
    exact (List.getElem?_eq_some_iff.1 hr').1
  obtain ⟨r2, w1, w2, w3⟩ := key q' _ (List.getElem?_eq_getElem hq2)
  rw [hr'] at w1
  cases w1
  refine y2 q' hq' _ (List.getElem?_eq_getElem hq2) ?_
  rw [← w3]
  obtain ⟨j, x, c1, c2, c3⟩ := hc
  obtain ⟨j', x', c1', c2', c3'⟩ := w2.1
  have : j = j' := by
    rcases lt_trichotomy j j' with hlt | heq | hlt
    · exact absurd c1.1 (c1'.2 j hlt)
    · exact heq
    · exact absurd c1'.1 (c1.2 j' hlt)
  subst this
  rw [c2] at c2'
  cases c2'
  rw [c3', c3]

/-- **C109.** From a "Model" sheet one element is made for each row of data, in order.  Its lengths, diameters, node, loads
and flags are those of the columns of its row, and its material is the last one of the table of materials with the number
of the row, with the density and the moduli of that table. -/
theorem C109_shaft (lib : Material.Lib) (sheet : Sheet) (l : List ShaftElement) (h : shafts lib sheet "Model" = .ok l) :
    ∃ hdr rows mhdr mrows, IsTable (.shaft true) sheet hdr rows ∧ IsMaterials sheet mhdr mrows ∧ l.length = rows.length ∧
      ∀ (i : ℕ) s, l[i]? = some s → ShaftRow sheet hdr rows mhdr mrows i s := by
  obtain ⟨d, h1, h⟩ := bindOk h
  rw [if_pos rfl] at h
  have h1 : readTable sheet (.shaft true) 0 = .ok d := h1
  obtain ⟨ms, h2, h⟩ := bindOk h
  obtain ⟨Ls, h3, h⟩ := bindOk h
  obtain ⟨hdr, rows, k1, k2, -, hkeys⟩ := reads h1
  obtain ⟨mhdr, mrows, k3, k4⟩ := material_row h1
  obtain ⟨hl, hget⟩ := mapM_get h
  obtain ⟨vs, e1, e2, -⟩ := k2 "L" (by decide)
  rw [h3] at e1
  cases e1
  rw [List.length_range] at hl
  refine ⟨hdr, rows, mhdr, mrows, k1, k3, hl.trans e2, fun i s hs => ?_⟩
  have hi : i < Ls.length := hl ▸ (List.getElem?_eq_some_iff.1 hs).1
  have hx := hget i i s (by rw [List.getElem?_range hi]) hs
  have nm := fun {k : String} (hk : k ∈ keysOf (.shaft true)) {x : ℝ} (hx : numberAt d k i = .ok x) =>
    gives_entry k2 hk (numberAt_ok hx)
  obtain ⟨L, a1, hx⟩ := bindOk hx
  obtain ⟨idl, a2, hx⟩ := bindOk hx
  obtain ⟨odl, a3, hx⟩ := bindOk hx
  obtain ⟨idr, a4, hx⟩ := bindOk hx
  obtain ⟨odr, a5, hx⟩ := bindOk hx
  obtain ⟨m, a6, hx⟩ := bindOk hx
  obtain ⟨M, a7, hx⟩ := bindOk hx
  obtain ⟨n, a8, hx⟩ := bindOk hx
  obtain ⟨N, a9, hx⟩ := bindOk hx
  obtain ⟨ax, a10, hx⟩ := bindOk hx
  obtain ⟨tq, a11, hx⟩ := bindOk hx
  obtain ⟨se, a12, hx⟩ := bindOk hx
  obtain ⟨ri, a13, hx⟩ := bindOk hx
  obtain ⟨gy, a14, hx⟩ := bindOk hx
  obtain ⟨sm, a15, hx⟩ := bindOk hx
  obtain ⟨al, a16, hx⟩ := bindOk hx
  obtain ⟨be, a17, hx⟩ := bindOk hx
  obtain ⟨b1, b2, b3, b4, b5, b6, b7, b8, b9, b10, b11, b12, b13, b14, b15, b16⟩ := C04_attributes hx
  cases b6
  have hm : ∃ t, m = .str t ∧ ms.get? t = some s.material := by
    cases m with
    | str t =>
      refine ⟨t, rfl, ?_⟩
      simp only [lookupMaterial] at a7
      cases e : ms.get? t with
      | none => rw [e] at a7; cases a7
      | some m' => rw [e] at a7; cases a7; rfl
    | _ => cases a7
  obtain ⟨t, rfl, ht⟩ := hm
  obtain ⟨c1, q, r, c2, c3, c4⟩ := k4 ms h2 t _ ht
  exact
    { L := by rw [b1]; exact nm (by decide) a1
      idl := by rw [b2]; exact nm (by decide) a2
      odl := by rw [b3]; exact nm (by decide) a3
      idr := by rw [b4]; exact nm (by decide) a4
      odr := by rw [b5]; exact nm (by decide) a5
      n := ⟨N, b7, by rw [← node_ok a9]; exact gives_entry k2 (by decide) a8⟩
      axial_force := by rw [b8]; exact nm (by decide) a10
      torque := by rw [b9]; exact nm (by decide) a11
      shear_effects := ⟨se, gives_entry k2 (by decide) a12, by rw [b10]; exact truth_iff⟩
      rotary_inertia := ⟨ri, gives_entry k2 (by decide) a13, by rw [b11]; exact truth_iff⟩
      gyroscopic := ⟨gy, gives_entry k2 (by decide) a14, by rw [b12]; exact truth_iff⟩
      shear_method_calc := ⟨sm, gives_entry k2 (by decide) a15, fun t ht => by rw [b13, ht]; rfl⟩
      material := ⟨by rw [c1]; exact gives_entry k2 (by decide) a6, q, r, c2, c3, by rw [c1]; exact c4⟩
      tag := b14 }

/-- **C109 fails.** The damping factors `alpha` and `beta` of a shaft are not read: they are zero whatever the sheet says. -/
theorem C109_damping_false (lib : Material.Lib) (sheet : Sheet) (t : String) (l : List ShaftElement)
    (h : shafts lib sheet t = .ok l) : ∀ s ∈ l, s.alpha = 0 ∧ s.beta = 0 := by
  obtain ⟨d, h1, h⟩ := bindOk h
  obtain ⟨-, -, -, -, -, hkeys⟩ := reads h1
  have hab : ∀ k ∈ ["alpha", "beta"], d.get? k = none := by
    intro k hk
    refine Dict.get?_none_of_not_mem _ ?_
    rw [hkeys]
    simp only [List.mem_cons, List.not_mem_nil, or_false] at hk
    rcases hk with rfl | rfl <;> cases (t == "Model") <;> decide
  have key : ∀ (mat : PVal → Res Material) (i : ℕ) s, shaftAt mat d i = .ok s → s.alpha = 0 ∧ s.beta = 0 := by
    intro mat i s hx
    obtain ⟨_, _, hx⟩ := bindOk hx
    obtain ⟨_, _, hx⟩ := bindOk hx
    obtain ⟨_, _, hx⟩ := bindOk hx
    obtain ⟨_, _, hx⟩ := bindOk hx
    obtain ⟨_, _, hx⟩ := bindOk hx
    obtain ⟨_, _, hx⟩ := bindOk hx
    obtain ⟨_, _, hx⟩ := bindOk hx
    obtain ⟨_, _, hx⟩ := bindOk hx
    obtain ⟨_, _, hx⟩ := bindOk hx
    obtain ⟨_, _, hx⟩ := bindOk hx
    obtain ⟨_, _, hx⟩ := bindOk hx
    obtain ⟨_, _, hx⟩ := bindOk hx
    obtain ⟨_, _, hx⟩ := bindOk hx
    obtain ⟨_, _, hx⟩ := bindOk hx
    obtain ⟨_, _, hx⟩ := bindOk hx
    obtain ⟨al, a1, hx⟩ := bindOk hx
    obtain ⟨be, a2, hx⟩ := bindOk hx
    obtain ⟨-, -, -, -, -, -, -, -, -, -, -, -, -, -, b15, b16⟩ := C04_attributes hx
    rw [numberOr, hab _ (by simp)] at a1 a2
    cases a1
    cases a2
    exact ⟨b15, b16⟩
  have fin : ∀ (mat : PVal → Res Material) (Ls : List PVal), (List.range Ls.length).mapM (shaftAt mat d) = .ok l →
      ∀ s ∈ l, s.alpha = 0 ∧ s.beta = 0 := by
    intro mat Ls hm s hs
    obtain ⟨i, hi, rfl⟩ := List.mem_iff_getElem.1 hs
    obtain ⟨a, -, h2⟩ := mapM_get' hm (List.getElem?_eq_getElem hi)
    exact key _ _ _ h2
  split_ifs at h
  · obtain ⟨ms, -, h⟩ := bindOk h
    obtain ⟨Ls, -, h⟩ := bindOk h
    exact fin _ _ h
  · obtain ⟨Ls, -, h⟩ := bindOk h
    exact fin _ _ h
  · cases h
    simp

/-- **C109 fails.** No shaft can be made from a "Simple" sheet, the kind that is expected unless told otherwise: the rows
of data are those with a number as material, and a number is not the name of a material that was saved. -/
theorem C109_simple_false (lib : Material.Lib) (sheet : Sheet) (l : List ShaftElement) :
    shafts lib sheet ≠ .ok l := by
  intro h
  obtain ⟨d, h1, h⟩ := bindOk h
  rw [if_neg (by decide), if_pos rfl] at h
  have h1 : readTable sheet (.shaft false) 0 = .ok d := h1
  obtain ⟨Ls, h3, h⟩ := bindOk h
  obtain ⟨hdr, rows, k1, k2, -, -⟩ := reads h1
  obtain ⟨vs, e1, e2, -⟩ := k2 "L" (by decide)
  rw [h3] at e1
  cases e1
  obtain ⟨h0, j, -, -, hj, ⟨hne, hnum, -⟩, -⟩ := k1
  have hpos : 0 < Ls.length := by
    rw [e2]
    exact List.length_pos_iff.2 hne
  obtain ⟨hl, hget⟩ := mapM_get h
  rw [List.length_range] at hl
  have hx := hget 0 0 l[0] (by rw [List.getElem?_range hpos]) (List.getElem?_eq_getElem (hl ▸ hpos))
  obtain ⟨_, _, hx⟩ := bindOk hx
  obtain ⟨_, _, hx⟩ := bindOk hx
  obtain ⟨_, _, hx⟩ := bindOk hx
  obtain ⟨_, _, hx⟩ := bindOk hx
  obtain ⟨_, _, hx⟩ := bindOk hx
  obtain ⟨m, a6, hx⟩ := bindOk hx
  obtain ⟨M, a7, hx⟩ := bindOk hx
  obtain ⟨r, hr, hg⟩ := gives_entry k2 (by decide) a6
  have hp : Picks hdr (namesOf (.shaft false) "material") j := ⟨[], "material", ["matnum"], rfl, hj, by simp⟩
  rcases hg with ⟨j', hj', hb⟩ | ⟨hno, -⟩
  · have : j' = j := by
      have a := TableLemmas.firstColumn_iff.2 hp
      rw [TableLemmas.firstColumn_iff.2 hj'] at a
      exact Option.some.inj a
    subst this
    have hc := hnum r (List.mem_of_getElem? hr)
    generalize r.getD j' .blank = c at hb hc
    cases c with
    | int z => simp [Becomes] at hb; subst hb; cases a7
    | num x => simp [Becomes] at hb; subst hb; cases a7
    | str s => exact hc
    | blank => exact hc
  · exact hno j hp

/-- **C109 fails.** For any other kind of sheet no shaft is made, and nothing is said. -/
theorem C109_kind_false (lib : Material.Lib) (sheet : Sheet) (t : String) (ht : t ≠ "Model" ∧ t ≠ "Simple")
    (l : List ShaftElement) (h : shafts lib sheet t = .ok l) : l = [] := by
  obtain ⟨d, h1, h⟩ := bindOk h
  rw [if_neg ht.1, if_neg ht.2] at h
  cases h
  rfl

/-- **C109 fails.** Text in a column of flags counts as true, also the text "False". -/
theorem C109_flags_false (lib : Material.Lib) (sheet : Sheet) (l : List ShaftElement) (h : shafts lib sheet "Model" = .ok l)
    (hdr : List Cell) (rows : Sheet) (ht : IsTable (.shaft true) sheet hdr rows) (i j : ℕ) (r : List Cell) (t : String)
    (htxt : t ≠ "") (hr : rows[i]? = some r) (hc : r.getD j .blank = .str t) (s : ShaftElement) (hs : l[i]? = some s) :
    (Picks hdr ["shear_effects", "shear effects"] j → s.shear_effects = true) ∧
      (Picks hdr ["rotary_inertia", "rotary inertia"] j → s.rotary_inertia = true) ∧
      (Picks hdr ["gyroscopic"] j → s.gyroscopic = true) := by
  obtain ⟨hdr', rows', mhdr, mrows, k1, -, -, k2⟩ := C109_shaft lib sheet l h
  obtain ⟨rfl, rfl⟩ := C33_unique ht k1
  have hrow := k2 i s hs
  have key : ∀ (k : String) (v : PVal), k ≠ "material" → TableGives (.shaft true) sheet hdr rows k i v →
      Picks hdr (namesOf (.shaft true) k) j → ¬ Falsy v := by
    intro k v hk ⟨r', hr', hg⟩ hj
    rw [hr] at hr'
    cases hr'
    rcases hg with ⟨j', hj', hb⟩ | ⟨hno, -⟩
    · have : j' = j := by
        have a := TableLemmas.firstColumn_iff.2 hj
        rw [TableLemmas.firstColumn_iff.2 hj'] at a
        exact Option.some.inj a
      subst this
      rw [hc] at hb
      simp only [Becomes, hk, and_false, if_false] at hb
      rw [hb.1]
      simp [Falsy, htxt]
    · exact absurd hj (hno j)
  obtain ⟨v1, g1, e1⟩ := hrow.shear_effects
  obtain ⟨v2, g2, e2⟩ := hrow.rotary_inertia
  obtain ⟨v3, g3, e3⟩ := hrow.gyroscopic
  exact ⟨fun hp => e1.2 (key _ _ (by decide) g1 hp), fun hp => e2.2 (key _ _ (by decide) g2 hp),
    fun hp => e3.2 (key _ _ (by decide) g3 hp)⟩

/-! ### Bearings -/

/-- **C109.** A bearing from a table has the node, the tag, the linked node, the scale factor and the color that were given;
its coefficients and frequencies are the converted columns of the table, and it has no mass.  It is the bearing that is made
by hand from these columns. -/
theorem C109_bearing (sp : Scipy) (sheet : Sheet) (n : ℕ) (tag : Option String) (n_link : Option ℕ) (scale_factor : ℝ)
    (color : String) (b : BearingElement) (h : bearing sp sheet n tag n_link scale_factor color = .ok b) :
    ∃ hdr rows f, IsTable .bearing sheet hdr rows ∧ b.frequency = some f ∧ NumbersRead sheet hdr rows "frequency" f ∧
      (∀ kc ∈ [("kxx", b.kxx), ("kxy", b.kxy), ("kyx", b.kyx), ("kyy", b.kyy), ("cxx", b.cxx), ("cxy", b.cxy),
        ("cyx", b.cyx), ("cyy", b.cyy)], NumbersRead sheet hdr rows kc.1 kc.2.values) ∧
      (∀ c ∈ [b.mxx, b.mxy, b.myx, b.myy], c.values = List.replicate rows.length 0) ∧
      b.n = n ∧ b.tag = tag ∧ b.n_link = n_link ∧ b.scale_factor = scale_factor ∧ b.color = color ∧
      BearingElement.init sp
        { n := n, kxx := .list b.kxx.values, kxy := .list b.kxy.values, kyx := .list b.kyx.values,
          kyy := some (.list b.kyy.values), cxx := .list b.cxx.values, cxy := .list b.cxy.values,
          cyx := .list b.cyx.values, cyy := some (.list b.cyy.values), frequency := some f, tag := tag, n_link := n_link,
          scale_factor := scale_factor, color := color } = .ok b := by
  obtain ⟨d, h1, h⟩ := bindOk h
  obtain ⟨n', h2, h⟩ := bindOk h
  obtain ⟨a, h3, h⟩ := bindOk h
  obtain ⟨hdr, rows, k1, k2, k3, -⟩ := reads h1
  rw [oneOf, k3 rfl] at h2
  cases h2
  have col : ∀ k ∈ keysOf .bearing, ∀ v, coefficients d k = .ok v → NumbersRead sheet hdr rows k v := by
    intro k hk v hv
    obtain ⟨l, e1, e2⟩ := bindOk hv
    obtain ⟨vs, e3, e4, e5⟩ := k2 k hk
    rw [e1] at e3
    cases e3
    obtain ⟨e6, e7⟩ := mapM_get e2
    refine ⟨e6.trans e4, fun i x hx => ?_⟩
    obtain ⟨p, e8, e9⟩ := mapM_get' e2 hx
    rw [number_ok e9] at e8
    exact e5 i _ e8
  obtain ⟨x1, a1, h3⟩ := bindOk h3
  obtain ⟨x2, a2, h3⟩ := bindOk h3
  obtain ⟨x3, a3, h3⟩ := bindOk h3
  obtain ⟨x4, a4, h3⟩ := bindOk h3
  obtain ⟨x5, a5, h3⟩ := bindOk h3
  obtain ⟨x6, a6, h3⟩ := bindOk h3
  obtain ⟨x7, a7, h3⟩ := bindOk h3
  obtain ⟨x8, a8, h3⟩ := bindOk h3
  obtain ⟨f, a9, h3⟩ := bindOk h3
  cases h3
  have hf := col _ (by decide) _ a9
  obtain ⟨b1, b2, b3, b4, b5, b6, b7⟩ := BearingLemmas.init_ok h
  simp only [List.mem_cons, List.not_mem_nil, or_false, forall_eq_or_imp, forall_eq, defaults, Option.getD_some,
    Option.getD_none] at b7
  obtain ⟨⟨c1, -⟩, ⟨c2, -⟩, ⟨c3, -⟩, ⟨c4, -⟩, ⟨c5, -⟩, ⟨c6, -⟩, ⟨c7, -⟩, ⟨c8, -⟩, ⟨c9, -⟩, ⟨c10, -⟩, ⟨c11, -⟩, ⟨c12, -⟩⟩ := b7
  have pl : ∀ {l : List ℝ} {r : Coeff}, Coeff.process sp (some f) (.list l) = .ok r → r.values = l :=
    fun h => BearingLemmas.interpolate_values (sp := sp) (freq := some f) h
  have ps : ∀ {x : ℝ} {r : Coeff}, Coeff.process sp (some f) (.scalar x) = .ok r → r.values = List.replicate f.length x :=
    fun h => BearingLemmas.interpolate_values (sp := sp) (freq := some f) h
  have v1 := pl c1
  have v2 := pl c2
  have v3 := pl c3
  have v4 := pl c4
  have v5 := pl c5
  have v6 := pl c6
  have v7 := pl c7
  have v8 := pl c8
  have v9 := ps c9
  have v10 := ps c10
  have v11 := ps c11
  have v12 := ps c12
  refine ⟨hdr, rows, f, k1, b3, hf, ?_, ?_, b1, b4, b2, b5, b6, ?_⟩
  · simp only [List.mem_cons, List.not_mem_nil, or_false, forall_eq_or_imp, forall_eq]
    rw [v1, v2, v3, v4, v5, v6, v7, v8]
    exact ⟨col _ (by decide) _ a1, col _ (by decide) _ a4, col _ (by decide) _ a5, col _ (by decide) _ a3,
      col _ (by decide) _ a2, col _ (by decide) _ a7, col _ (by decide) _ a8, col _ (by decide) _ a6⟩
  · simp only [List.mem_cons, List.not_mem_nil, or_false, forall_eq_or_imp, forall_eq]
    rw [v9, v10, v11, v12, hf.1]
    simp
  · rw [v1, v2, v3, v4, v5, v6, v7, v8]
    exact h

/-- **C109.** What `table_to_toml` returns makes the bearing of the table again. -/
theorem C109_toml (sp : Scipy) (sheet : Sheet) (n : ℕ) (a : BearingArgs) (h : tableToToml sp sheet n = .ok a) :
    ∃ b, bearing sp sheet n = .ok b ∧ BearingElement.init sp a = .ok b := by
  obtain ⟨b, h1, h2⟩ := bindOk h
  cases h2
  refine ⟨b, h1, ?_⟩
  obtain ⟨hdr, rows, f, -, hf, -, -, -, hn, -, -, -, -, h3⟩ := C109_bearing sp sheet n none none 1 "#355d7a" b h1
  rw [tomlArgs, hn, hf]
  exact h3

/-! ### Disks -/

/-- **C109.** From a table of disks one disk is made for each row of data, in order, with the node, the mass and the
moments of inertia of its row, and with the tag, the scale factor and the color of its place in the lists. -/
theorem C109_disk (sheet : Sheet) (tag : Option (List (Option String))) (scale_factor : Option (List ℝ))
    (color : Option (List String)) (l : List DiskElement) (h : disks sheet tag scale_factor color = .ok l) :
    ∃ hdr rows, IsTable .disk sheet hdr rows ∧ l.length = rows.length ∧
      ∀ (i : ℕ) d, l[i]? = some d → DiskRow sheet hdr rows tag scale_factor color i d := by
  obtain ⟨d, h1, h⟩ := bindOk h
  obtain ⟨ns, h2, h⟩ := bindOk h
  obtain ⟨hdr, rows, k1, k2, -, -⟩ := reads h1
  obtain ⟨vs, e1, e2, -⟩ := k2 "n" (by decide)
  rw [h2] at e1
  cases e1
  obtain ⟨hl, hget⟩ := mapM_get h
  rw [List.length_range] at hl
  refine ⟨hdr, rows, k1, hl.trans e2, fun i s hs => ?_⟩
  have hi : i < ns.length := hl ▸ (List.getElem?_eq_some_iff.1 hs).1
  have hx := hget i i s (by rw [List.getElem?_range hi]) hs
  obtain ⟨n, a1, hx⟩ := bindOk hx
  obtain ⟨N, a2, hx⟩ := bindOk hx
  obtain ⟨m, a3, hx⟩ := bindOk hx
  obtain ⟨Id, a4, hx⟩ := bindOk hx
  obtain ⟨Ip, a5, hx⟩ := bindOk hx
  obtain ⟨t, a6, hx⟩ := bindOk hx
  obtain ⟨sf, a7, hx⟩ := bindOk hx
  obtain ⟨c, a8, hx⟩ := bindOk hx
  cases hx
  exact
    { n := by
        have := gives_entry k2 (by decide) a1
        rw [node_ok a2] at this
        exact this
      m := gives_entry k2 (by decide) (numberAt_ok a3)
      Id := gives_entry k2 (by decide) (numberAt_ok a4)
      Ip := gives_entry k2 (by decide) (numberAt_ok a5)
      tag := given_ok a6
      scale_factor := given_ok a7
      color := given_ok a8 }

/-- **C109.** A table of disks whose rows hold numbers, with whole numbers from 1 as nodes, is accepted, if the lists of
tags, scale factors and colors are long enough. -/
theorem C109_disk_accepts (sheet : Sheet) (tag : Option (List (Option String))) (scale_factor : Option (List ℝ))
    (color : Option (List String)) (hdr : List Cell) (rows : Sheet) (ht : IsTable .disk sheet hdr rows)
    (hn : ∀ i < rows.length, ∃ n : ℕ, TableGives .disk sheet hdr rows "n" i (.num n))
    (hx : ∀ k ∈ ["m", "Id", "Ip"], ∀ i < rows.length, ∃ x : ℝ, TableGives .disk sheet hdr rows k i (.num x))
    (h1 : ∀ t, tag = some t → rows.length ≤ t.length) (h2 : ∀ t, scale_factor = some t → rows.length ≤ t.length)
    (h3 : ∀ t, color = some t → rows.length ≤ t.length) :
    ∃ l, disks sheet tag scale_factor color = .ok l := by
  have hne : rows ≠ [] := by
    obtain ⟨_, _, -, -, -, hb, -⟩ := ht
    exact hb.1
  have all : ∀ k ∈ mandatory .disk, ∀ i < rows.length, ∃ x : ℝ, TableGives .disk sheet hdr rows k i (.num x) := by
    intro k hk i hi
    simp only [mandatory, List.mem_cons, List.not_mem_nil, or_false] at hk
    rcases hk with rfl | rfl | rfl | rfl
    · obtain ⟨n, h⟩ := hn i hi
      exact ⟨n, h⟩
    · exact hx _ (by simp) i hi
    · exact hx _ (by simp) i hi
    · exact hx _ (by simp) i hi
  obtain ⟨d, hd⟩ := C33_accepts_partial sheet .disk 0 hdr rows (by simp) ht
    (fun k hk => gives_reads hne (by simp [leftOut]) fun i hi => by
      obtain ⟨x, h⟩ := all k hk i hi
      exact ⟨_, h⟩) (by simp [leftOut])
  obtain ⟨hdr', rows', k1, k2, -, -⟩ := reads hd
  obtain ⟨rfl, rfl⟩ := C33_unique ht k1
  have val : ∀ k ∈ keysOf .disk, ∀ i < rows.length, ∀ v, TableGives .disk sheet hdr rows k i v → entry d k i = .ok v := by
    intro k hk i hi v hv
    obtain ⟨vs, e1, e2, e3⟩ := k2 k hk
    have hi' : i < vs.length := e2 ▸ hi
    refine entry_eq e1 ?_
    have := e3 i _ (List.getElem?_eq_getElem hi')
    rw [List.getElem?_eq_getElem hi', gives_unique (by simp) this hv]
  obtain ⟨ns, e1, e2, -⟩ := k2 "n" (by decide)
  have tot : ∀ i ∈ List.range ns.length, ∃ y, diskAt d tag scale_factor color i = .ok y := by
    intro i hi
    have hi : i < rows.length := by rw [← e2]; exact List.mem_range.1 hi
    obtain ⟨n, g1⟩ := hn i hi
    obtain ⟨m, g2⟩ := hx "m" (by simp) i hi
    obtain ⟨Id, g3⟩ := hx "Id" (by simp) i hi
    obtain ⟨Ip, g4⟩ := hx "Ip" (by simp) i hi
    obtain ⟨t, g5⟩ := given_total (dflt := none) (l := tag) fun t ht => lt_of_lt_of_le hi (h1 t ht)
    obtain ⟨s, g6⟩ := given_total (dflt := (1 : ℝ)) (l := scale_factor) fun t ht => lt_of_lt_of_le hi (h2 t ht)
    obtain ⟨c, g7⟩ := given_total (dflt := "Firebrick") (l := color) fun t ht => lt_of_lt_of_le hi (h3 t ht)
    refine ⟨DiskElement.init n m Id Ip t s c, ?_⟩
    simp only [diskAt, numberAt]
    rw [val _ (by decide) i hi _ g1, val _ (by decide) i hi _ g2, val _ (by decide) i hi _ g3, val _ (by decide) i hi _ g4,
      g5, g6, g7]
    have : node (.num n) = .ok n := by simp [node]
    simp only [bind, Except.bind, this, number]
    rfl
  obtain ⟨l, hl⟩ := mapM_total tot
  refine ⟨l, ?_⟩
  simp only [disks, hd, e1, bind, Except.bind]
  exact hl

/-- **C109.** Lists of tags, scale factors or colors that are too short are rejected. -/
theorem C109_disk_short (sheet : Sheet) (tag : Option (List (Option String))) (scale_factor : Option (List ℝ))
    (color : Option (List String)) (l : List DiskElement) (h : disks sheet tag scale_factor color = .ok l) :
    (∀ t, tag = some t → l.length ≤ t.length) ∧ (∀ t, scale_factor = some t → l.length ≤ t.length) ∧
      ∀ t, color = some t → l.length ≤ t.length := by
  obtain ⟨hdr, rows, -, -, hr⟩ := C109_disk sheet tag scale_factor color l h
  have key : ∀ {α : Type} (x : ℕ → α) (o : Option (List α)) (dflt : α), (∀ i < l.length, GivenOr o dflt i (x i)) →
      ∀ t, o = some t → l.length ≤ t.length := by
    intro α x o dflt hx t ht
    by_contra hlt
    have := (hx t.length (by omega)).2 t ht
    simp at this
  have at' : ∀ i (hi : i < l.length), DiskRow sheet hdr rows tag scale_factor color i l[i] :=
    fun i hi => hr i _ (List.getElem?_eq_getElem hi)
  refine ⟨key (fun i => (l.getD i (DiskElement.init 0 0 0 0)).tag) _ none fun i hi => ?_,
    key (fun i => (l.getD i (DiskElement.init 0 0 0 0)).scale_factor) _ 1 fun i hi => ?_,
    key (fun i => (l.getD i (DiskElement.init 0 0 0 0)).color) _ "Firebrick" fun i hi => ?_⟩
  · have := (at' i hi).tag
    simpa [List.getD_eq_getElem?_getD, List.getElem?_eq_getElem hi] using this
  · have := (at' i hi).scale_factor
    simpa [List.getD_eq_getElem?_getD, List.getElem?_eq_getElem hi] using this
  · have := (at' i hi).color
    simpa [List.getD_eq_getElem?_getD, List.getElem?_eq_getElem hi] using this

/-! ### Examples -/

/-- A table of disks is accepted. -/
example : ∃ l, disks exDisks (tag := some [some "a", none, some "b"]) = .ok l ∧ l.length = 2 := by
  refine ⟨[DiskElement.init 2 32.5 0.125 0.25 (some "a"), DiskElement.init 4 32.5 0.125 0.25], ?_, rfl⟩
  have h3 : node (.num (((3 : ℤ) : ℝ) - 1)) = .ok 2 := by
    have : ((3 : ℤ) : ℝ) - 1 = ((2 : ℕ) : ℝ) := by norm_num
    rw [this]
    simp [node]
  have h5 : node (.num (((5 : ℤ) : ℝ) - 1)) = .ok 4 := by
    have : ((5 : ℤ) : ℝ) - 1 = ((4 : ℕ) : ℝ) := by norm_num
    rw [this]
    simp [node]
  unfold disks
  rw [exDisks_read]
  show (List.range 2).mapM (diskAt _ _ _ _) = _
  rw [show List.range 2 = [0, 1] from rfl, List.mapM_cons, List.mapM_cons]
  have e0 : ∀ d, d = ([("n", .list [.num (((3 : ℤ) : ℝ) - 1), .num (((5 : ℤ) : ℝ) - 1)]), ("m", .list [.num 32.5, .num 32.5]),
     ("Id", .list [.num 0.125, .num 0.125]), ("Ip", .list [.num 0.25, .num 0.25])] : Dict String TableParam) →
      diskAt d (some [some "a", none, some "b"]) none none 0 = .ok (DiskElement.init 2 32.5 0.125 0.25 (some "a")) ∧
      diskAt d (some [some "a", none, some "b"]) none none 1 = .ok (DiskElement.init 4 32.5 0.125 0.25) := by
    rintro d rfl
    constructor
    · show (node (.num (((3 : ℤ) : ℝ) - 1)) >>= _) = _
      rw [h3]
      rfl
    · show (node (.num (((5 : ℤ) : ℝ) - 1)) >>= _) = _
      rw [h5]
      rfl
  rw [(e0 _ rfl).1, (e0 _ rfl).2]
  rfl

/-- A table of a bearing is accepted. -/
example : ∃ b, bearing BearingLemmas.exScipy exTable 4 = .ok b ∧ ∃ a, tableToToml BearingLemmas.exScipy exTable 4 = .ok a := by
  have key : ∃ b, bearing BearingLemmas.exScipy exTable 4 = .ok b := by
    unfold bearing
    rw [exTable_read]
    refine BearingLemmas.init_accepts (a := _) BearingLemmas.exScipy_contract ?_ ?_
    · show List.Nodup [(100.5 : ℝ) * 0.1047197551197, 200 * 0.1047197551197]
      norm_num
    · intro c hc
      simp [Coefs12.toList, defaults] at hc
      rcases hc with rfl | rfl | rfl | rfl | rfl | rfl | rfl | rfl | rfl | rfl | rfl | rfl <;> simp [Consistent]
  obtain ⟨b, hb⟩ := key
  exact ⟨b, hb, tomlArgs b, by rw [tableToToml, hb]; rfl⟩

/-- A table of a shaft with its materials, and a column of flags. -/
noncomputable def exShafts : Sheet :=
  [[.str "matno", .str "rhoa", .str "ea", .str "ga", .blank, .blank, .blank, .blank],
   [.int 1, .num 7800, .num 200, .num 80, .blank, .blank, .blank, .blank],
   [.int 2, .num 7000, .num 200, .num 80, .blank, .blank, .blank, .blank],
   [.int 1, .num 7810, .num 210, .num 84, .blank, .blank, .blank, .blank],
   [.blank, .blank, .blank, .blank, .blank, .blank, .blank, .blank],
   [.str "elemnum", .str "length", .str "od_Left", .str "id_left", .str "od_right", .str "id_right", .str "matnum",
    .str "gyroscopic"],
   [.int 1, .num 2.5, .num 3, .int 0, .num 3, .int 0, .int 1, .str "False"],
   [.int 2, .num 2.5, .num 3, .int 0, .num 3, .int 0, .int 1, .str "True"]]

/-- The elements are made; the last material with number 1 is used, and "False" is taken for true. -/
theorem exShafts_ok (lib : Material.Lib) : ∃ l, shafts lib exShafts "Model" = .ok l ∧ l.length = 2 ∧
    ∀ s ∈ l, s.material.rho = 7810 ∧ s.gyroscopic = true := by
  obtain ⟨d, hd, e1, e2, e3, e4, e5, g1, g2, g3, g4, g5, g6, g7, g8, g9, g10, g11, g12, g13, g14, g15⟩ :
      ∃ d, readTable exShafts (.shaft true) 0 = .ok d ∧
        d.get? "matno" = some (.list [.num (intPart ((1 : ℤ) : ℝ)), .num (intPart ((2 : ℤ) : ℝ)), .num (intPart ((1 : ℤ) : ℝ))]) ∧
        d.get? "rhoa" = some (.list [.num 7800, .num 7000, .num 7810]) ∧
        d.get? "ea" = some (.list [.num 200, .num 200, .num 210]) ∧
        d.get? "ga" = some (.list [.num 80, .num 80, .num 84]) ∧
        d.get? "color" = some (.list [.str "#525252", .str "#525252", .str "#525252"]) ∧
        d.get? "L" = some (.list [.num 2.5, .num 2.5]) ∧
        d.get? "idl" = some (.list [.num ((0 : ℤ) : ℝ), .num ((0 : ℤ) : ℝ)]) ∧
        d.get? "odl" = some (.list [.num 3, .num 3]) ∧
        d.get? "idr" = some (.list [.num ((0 : ℤ) : ℝ), .num ((0 : ℤ) : ℝ)]) ∧
        d.get? "odr" = some (.list [.num 3, .num 3]) ∧
        d.get? "material" = some (.list [.str ("shaft_mat_" ++ toString (intPart ((1 : ℤ) : ℝ))),
          .str ("shaft_mat_" ++ toString (intPart ((1 : ℤ) : ℝ)))]) ∧
        d.get? "n" = some (.list [.num (((1 : ℤ) : ℝ) - 1), .num (((2 : ℤ) : ℝ) - 1)]) ∧
        d.get? "axial_force" = some (.list [.num 0, .num 0]) ∧
        d.get? "torque" = some (.list [.num 0, .num 0]) ∧
        d.get? "shear_effects" = some (.list [.bool true, .bool true]) ∧
        d.get? "rotary_inertia" = some (.list [.bool true, .bool true]) ∧
        d.get? "gyroscopic" = some (.list [.str "False", .str "True"]) ∧
        d.get? "shear_method_calc" = some (.list [.str "cowper", .str "cowper"]) ∧
        d.get? "alpha" = none ∧ d.get? "beta" = none :=
    ⟨_, rfl, rfl, rfl, rfl, rfl, rfl, rfl, rfl, rfl, rfl, rfl, rfl, rfl, rfl, rfl, rfl, rfl, rfl, rfl, rfl, rfl⟩
  have i1 : intPart ((1 : ℤ) : ℝ) = 1 := by norm_num [intPart]
  have i2 : intPart ((2 : ℤ) : ℝ) = 2 := by norm_num [intPart]
  rw [i1, i2] at e1
  rw [i1] at g6
  have em : ∀ k v w u, d.get? k = some (.list [v, w, u]) → entry d k 0 = .ok v ∧ entry d k 1 = .ok w ∧ entry d k 2 = .ok u := by
    intro k v w u h
    simp [entry, listOf, h, bind, Except.bind]
  have es : ∀ k v w, d.get? k = some (.list [v, w]) → entry d k 0 = .ok v ∧ entry d k 1 = .ok w := by
    intro k v w h
    simp [entry, listOf, h, bind, Except.bind]
  have t1 : toInt (.num ((1 : ℤ) : ℝ)) = .ok 1 := toInt_int 1
  have t2 : toInt (.num ((2 : ℤ) : ℝ)) = .ok 2 := toInt_int 2
  have s1 : "shaft_mat_" ++ toString (1 : ℤ) = "shaft_mat_1" := by decide
  have s2 : "shaft_mat_" ++ toString (2 : ℤ) = "shaft_mat_2" := by decide
  have hm : FromTable.materials d = .ok [("shaft_mat_1", ⟨"shaft_mat_1", 7810, 210, 84, 210 / (2 * 84) - 1, "#525252"⟩),
      ("shaft_mat_2", ⟨"shaft_mat_2", 7000, 200, 80, 200 / (2 * 80) - 1, "#525252"⟩)] := by
    have b1 := em _ _ _ _ e1
    have b2 := em _ _ _ _ e2
    have b3 := em _ _ _ _ e3
    have b4 := em _ _ _ _ e4
    have b5 := em _ _ _ _ e5
    have m0 : materialAt d 0 = .ok ("shaft_mat_1", ⟨"shaft_mat_1", 7800, 200, 80, 200 / (2 * 80) - 1, "#525252"⟩) := by
      simp only [materialAt, numberAt, b1, b2, b3, b4, b5, bind, Except.bind, t1, s1, number, FromTable.color]
      rw [show Material.init "shaft_mat_1" 7800 (some 200) (some 80) none "#525252" =
        .ok ⟨"shaft_mat_1", 7800, 200, 80, 200 / (2 * 80) - 1, "#525252"⟩ by
          simp [Material.init, Material.given, Material.pyDiv, bind, Except.bind]]
      rfl
    have m1 : materialAt d 1 = .ok ("shaft_mat_2", ⟨"shaft_mat_2", 7000, 200, 80, 200 / (2 * 80) - 1, "#525252"⟩) := by
      simp only [materialAt, numberAt, b1, b2, b3, b4, b5, bind, Except.bind, t2, s2, number, FromTable.color]
      rw [show Material.init "shaft_mat_2" 7000 (some 200) (some 80) none "#525252" =
        .ok ⟨"shaft_mat_2", 7000, 200, 80, 200 / (2 * 80) - 1, "#525252"⟩ by
          simp [Material.init, Material.given, Material.pyDiv, bind, Except.bind]]
      rfl
    have m2 : materialAt d 2 = .ok ("shaft_mat_1", ⟨"shaft_mat_1", 7810, 210, 84, 210 / (2 * 84) - 1, "#525252"⟩) := by
      simp only [materialAt, numberAt, b1, b2, b3, b4, b5, bind, Except.bind, t1, s1, number, FromTable.color]
      rw [show Material.init "shaft_mat_1" 7810 (some 210) (some 84) none "#525252" =
        .ok ⟨"shaft_mat_1", 7810, 210, 84, 210 / (2 * 84) - 1, "#525252"⟩ by
          simp [Material.init, Material.given, Material.pyDiv, bind, Except.bind]]
      rfl
    unfold FromTable.materials
    rw [listOf, e1]
    show ((List.range 3).mapM (materialAt d) >>= _) = _
    rw [show List.range 3 = [0, 1, 2] from rfl, List.mapM_cons, List.mapM_cons, List.mapM_cons, m0, m1, m2]
    rfl
  have ini : ∀ n, ∃ s : ShaftElement, ShaftElement.init 2.5 ((0 : ℤ) : ℝ) 3 (some ((0 : ℤ) : ℝ)) (some 3)
      (some ⟨"shaft_mat_1", 7810, 210, 84, 210 / (2 * 84) - 1, "#525252"⟩) (some n) 0 0 true true true "cowper" none 0 0 = .ok s := by
    intro n
    refine ⟨_, ShaftLemmas.facts_init (s := ⟨2.5, ((0 : ℤ) : ℝ), 3, ((0 : ℤ) : ℝ), 3,
      ⟨"shaft_mat_1", 7810, 210, 84, 210 / (2 * 84) - 1, "#525252"⟩, some n, 0, 0, true, true, true, "cowper", none, 0, 0⟩)
      (ShaftLemmas.physical_facts ?_ (.inr rfl))⟩
    constructor <;> norm_num [ShaftElement.beam]
  have n1 : node (.num (((1 : ℤ) : ℝ) - 1)) = .ok 0 := by
    have : ((1 : ℤ) : ℝ) - 1 = ((0 : ℕ) : ℝ) := by norm_num
    rw [this]
    simp [node]
  have n2 : node (.num (((2 : ℤ) : ℝ) - 1)) = .ok 1 := by
    have : ((2 : ℤ) : ℝ) - 1 = ((1 : ℕ) : ℝ) := by norm_num
    rw [this]
    simp [node]
  obtain ⟨x, hx⟩ := ini 0
  obtain ⟨y, hy⟩ := ini 1
  have key : ∀ ms : Dict String Material,
      ms.get? "shaft_mat_1" = some ⟨"shaft_mat_1", 7810, 210, 84, 210 / (2 * 84) - 1, "#525252"⟩ →
      shaftAt (lookupMaterial ms) d 0 = .ok x ∧ shaftAt (lookupMaterial ms) d 1 = .ok y := by
    intro ms hms
    rw [s1] at g6
    have b1 := es _ _ _ g1
    have b2 := es _ _ _ g2
    have b3 := es _ _ _ g3
    have b4 := es _ _ _ g4
    have b5 := es _ _ _ g5
    have b6 := es _ _ _ g6
    have b7 := es _ _ _ g7
    have b8 := es _ _ _ g8
    have b9 := es _ _ _ g9
    have b10 := es _ _ _ g10
    have b11 := es _ _ _ g11
    have b12 := es _ _ _ g12
    have b13 := es _ _ _ g13
    have tf : truth (.str "False") = true := by simp [truth]
    have tt : truth (.str "True") = true := by simp [truth]
    constructor
    · simp only [shaftAt, numberAt, numberOr, g14, g15, b1, b2, b3, b4, b5, b6, b7, b8, b9, b10, b11, b12, b13, bind,
        Except.bind, number, lookupMaterial, hms, n1, tf, method]
      exact hx
    · simp only [shaftAt, numberAt, numberOr, g14, g15, b1, b2, b3, b4, b5, b6, b7, b8, b9, b10, b11, b12, b13, bind,
        Except.bind, number, lookupMaterial, hms, n2, tt, method]
      exact hy
  refine ⟨[x, y], ?_, rfl, ?_⟩
  · unfold shafts
    rw [show ("Model" == "Model") = true from rfl, hd]
    show ((FromTable.materials d >>= _) : Res _) = _
    rw [hm]
    show ((listOf d "L" >>= _) : Res _) = _
    rw [listOf, g1]
    show (List.range 2).mapM (shaftAt (lookupMaterial _) d) = _
    rw [show List.range 2 = [0, 1] from rfl, List.mapM_cons, List.mapM_cons, (key _ rfl).1, (key _ rfl).2]
    rfl
  · intro s hs
    simp only [List.mem_cons, List.not_mem_nil, or_false] at hs
    rcases hs with rfl | rfl
    · obtain ⟨-, -, -, -, -, b6, -, -, -, -, -, b12, -⟩ := C04_attributes hx
      exact ⟨by rw [Option.some.inj b6], b12⟩
    · obtain ⟨-, -, -, -, -, b6, -, -, -, -, -, b12, -⟩ := C04_attributes hy
      exact ⟨by rw [Option.some.inj b6], b12⟩

/-- A "Simple" sheet with all its columns. -/
noncomputable def exSimple : Sheet :=
  [[.str "n", .str "length", .str "idl", .str "odl", .str "idr", .str "odr", .str "material"],
   [.num 1, .num 0.5, .int 0, .num 0.25, .int 0, .num 0.25, .int 1]]

/-- It is read, but no shaft is made from it: an error, or an empty list. -/
example (lib : Material.Lib) : (∃ d, readTable exSimple (.shaft false) 0 = .ok d) ∧
    shafts lib exSimple "Simple" = .error .attributeError ∧ shafts lib exSimple "simple" = .ok [] :=
  ⟨⟨_, rfl⟩, rfl, rfl⟩

end Ross.Props
