import Verif.Lemmas.PersistRotor
import Verif.Lemmas.ExRotor

/-!
# C30, C31: elements and rotors survive saving and loading

`Persist.save e file` is `e.save(file)` on a file with the given content (`none`: no file yet), and
`Persist.load sp cls file` is `cls.load(file)`; `Persist.saveRotor`/`Persist.loadRotor` are
`Rotor.save` and `Rotor.load`.  A file is the list of its tables in order.
-/

namespace Ross.Props

open Spec Persist PersistLemmas RotorLemmas Rotor

/-- The text that names the table of an element: its class and its tag. -/
def tableName (e : Elm) : String := classOf e ++ "_" ++ e.tag.getD "None"

theorem tableName_eq (e : Elm) : tableName e = key e := by
  unfold tableName key
  rw [classOf_eq]

theorem save_none {sp : Scipy} {e : Elm} (h : Constructed sp e) (hs : Savable e) :
    ∃ t, data e = .ok t ∧ save e none = .ok [(tableName e, Toml.table t)] ∧
      readData sp (classOf e) (Toml.table t) = .ok (reread e) := by
  obtain ⟨t, h1, h2⟩ := data_reread h hs
  refine ⟨t, h1, ?_, by rw [classOf_eq]; exact h2⟩
  rw [tableName_eq]
  simp [save, h1, bind, Except.bind, pure, Except.pure, Dict.set, Toml.dump]

/-! ### C30: elements -/

/-- **C30** Every element that a constructor has returned, except seals and 6-dof point masses, is
written to a new file as one table named after its class and tag, and loading the file with the class
of the element gives the same element: every field, including the material, the node, the tag and the
tables of coefficients. -/
theorem C30_roundtrip_partial {sp : Scipy} {e : Elm} (h : Constructed sp e) (hp : Faithful e) :
    ∃ t, save e none = .ok [(tableName e, t)] ∧ load sp (classOf e) [(tableName e, t)] = .ok e := by
  obtain ⟨t, -, h2, h3⟩ := save_none h (savable_of_faithful hp)
  rw [reread_eq hp] at h3
  exact ⟨_, h2, h3⟩

/-- **C30** A seal is written and read back as well, but with half its scale factor. -/
theorem C30_seal_partial {sp : Scipy} {b : BearingElement} (h : Constructed sp (.brg (.brg true b))) :
    ∃ t, save (.brg (.brg true b)) none = .ok [("SealElement_" ++ b.tag.getD "None", t)] ∧
      load sp "SealElement" [("SealElement_" ++ b.tag.getD "None", t)] =
        .ok (.brg (.brg true { b with scale_factor := b.scale_factor / 2 })) := by
  obtain ⟨t, -, h2, h3⟩ := save_none h trivial
  exact ⟨_, h2, h3⟩

/-- **C30** does not hold of seals: no seal with a scale factor other than zero comes back. -/
theorem C30_seal_false {sp : Scipy} {b : BearingElement} (h : Constructed sp (.brg (.brg true b)))
    (hb : b.scale_factor ≠ 0) {f : TomlFile} (hs : save (.brg (.brg true b)) none = .ok f) :
    load sp "SealElement" f ≠ .ok (.brg (.brg true b)) := by
  obtain ⟨t, h2, h3⟩ := C30_seal_partial h
  rw [hs] at h2
  rw [Except.ok.inj h2, h3]
  intro hc
  have := congrArg (fun x : BearingElement => x.scale_factor)
    (BrgEl.brg.inj (Elm.brg.inj (Except.ok.inj hc))).2
  dsimp only at this
  apply hb
  linarith

/-- **C30** does not hold of 6-dof point masses: none can be saved. -/
theorem C30_pm6_false (p : PointMass6DoF) (f : Option TomlFile) :
    save (.pm (.pm6 p)) f = .error .attributeError := by
  have : data (.pm (.pm6 p)) = .error .attributeError :=
    collect_error (p := "m") (by decide) rfl
  simp [save, this, bind, Except.bind]

/-- **C30** does not hold of ball bearings and roller bearings: none can be saved, since the numbers
and the sizes of the balls and rollers are not kept. -/
theorem C30_rolling_false (b : BearingElement) :
    ballData b = .error .keyError ∧ rollerData b = .error .keyError :=
  ⟨collect_error (p := "n_balls") (by decide) rfl, collect_error (p := "n_rollers") (by decide) rfl⟩

theorem get_set (f : TomlFile) (k : String) (t : Table) (k' : String) :
    (f.set k t).get? k' = if k' = k then some t else f.get? k' := by
  induction f with
  | nil =>
    by_cases h : k' = k
    · simp [Dict.set, Dict.get?, h]
    · simp [Dict.set, Dict.get?, h, Ne.symm h]
  | cons a f ih =>
    obtain ⟨x, v⟩ := a
    by_cases h : x = k
    · subst h
      by_cases h' : k' = x
      · simp [Dict.set, Dict.get?, h']
      · simp [Dict.set, Dict.get?, h', Ne.symm h']
    · simp only [Dict.set, if_neg h, Dict.get?]
      by_cases h' : x = k'
      · subst h'
        simp [h]
      · simp only [if_neg h']
        exact ih

theorem dump_get (f : TomlFile) (k : String) :
    (Toml.dump f).get? k = (f.get? k).map Toml.table := by
  induction f with
  | nil => rfl
  | cons a f ih =>
    obtain ⟨x, v⟩ := a
    simp only [Toml.dump, List.map_cons, Dict.get?] at ih ⊢
    by_cases h : x = k
    · simp [h]
    · rw [if_neg h, if_neg h]
      exact ih

/-- **C30** Saving into a file that exists replaces the table of the element, or adds it, and leaves
every other table as it was (the file `f` itself having been read from the disk: it is what writing
it again gives). -/
theorem C30_other_tables {sp : Scipy} {e : Elm} (h : Constructed sp e) (hp : Savable e) {f : TomlFile}
    (hf : Toml.dump f = f) :
    ∃ f' t, save e (some f) = .ok f' ∧ Toml.dump f' = f' ∧ f'.get? (tableName e) = some t ∧
      readData sp (classOf e) t = .ok (reread e) ∧
      (∀ k, k ≠ tableName e → f'.get? k = f.get? k) ∧
      f'.keys = if tableName e ∈ f.keys then f.keys else f.keys ++ [tableName e] := by
  obtain ⟨t, h1, h2⟩ := data_reread h hp
  refine ⟨Toml.dump (f.set (key e) t), Toml.table t,
    by simp [save, h1, bind, Except.bind, pure, Except.pure], dump_dump _, ?_, ?_, ?_, ?_⟩
  · rw [dump_get, tableName_eq, get_set, if_pos rfl]
    rfl
  · rw [classOf_eq]; exact h2
  · intro k hk
    rw [dump_get, get_set, ← tableName_eq, if_neg hk, ← dump_get, hf]
  · rw [← tableName_eq]
    have hd : (Toml.dump (f.set (tableName e) t)).keys = (f.set (tableName e) t).keys := by
      simp [Toml.dump, Dict.keys, Function.comp_def]
    rw [hd]
    clear h h1 h2 hp hd hf
    induction f with
    | nil => rfl
    | cons a f ih =>
      obtain ⟨x, v⟩ := a
      by_cases hx : x = tableName e
      · subst hx
        simp [Dict.set, Dict.keys]
      · have e1 : (Dict.set ((x, v) :: f) (tableName e) t).keys =
            x :: (Dict.set f (tableName e) t).keys := by
          simp [Dict.set, hx, Dict.keys]
        have e2 : Dict.keys ((x, v) :: f) = x :: Dict.keys f := rfl
        rw [e1, e2, ih]
        by_cases hk : tableName e ∈ Dict.keys f
        · rw [if_pos hk, if_pos (List.mem_cons_of_mem _ hk)]
        · rw [if_neg hk, if_neg fun hc => ?_]
          · rfl
          · rcases List.mem_cons.1 hc with h | h
            · exact hx h.symm
            · exact hk h

/-- **C30** A file that holds several elements gives back the first one of them only, with whatever
class it is loaded: two disks saved into one file come back as the first. -/
theorem C30_shared_false {sp : Scipy} {d d' : DiskEl} (hs : d.six = d'.six) (hn : d.d.tag ≠ d'.d.tag)
    (ht : d.d.tag.isSome) (ht' : d'.d.tag.isSome) :
    ∃ f f', save (.disk d) none = .ok f ∧ save (.disk d') (some f) = .ok f' ∧
      load sp (classOf (.disk d')) f' = .ok (.disk d) ∧
      load sp (classOf (.disk d')) f' ≠ .ok (.disk d') := by
  have hm : ∀ x : DiskEl, Constructed sp (.disk x) := fun x => ⟨_, _, _, _, _, _, _, rfl⟩
  obtain ⟨t, h1, h2, h3⟩ := save_none (hm d) trivial
  have hd : Toml.dump [(tableName (.disk d), Toml.table t)] = [(tableName (.disk d), Toml.table t)] := by
    simp [Toml.dump, table_table]
  have hk : key (.disk d') ∉ Dict.keys [(tableName (.disk d), Toml.table t)] := by
    simp only [Dict.keys, List.map_cons, List.map_nil, List.mem_singleton, tableName_eq]
    intro hc
    exact hn (key_inj hc ht' ht).symm
  have h4 := save_new (hm d') trivial hd hk
  have hcls : classOf (.disk d') = classOf (.disk d) := by
    obtain ⟨x, d⟩ := d
    obtain ⟨y, d'⟩ := d'
    dsimp only at hs
    subst hs
    rfl
  have h5 : load sp (classOf (.disk d')) ([(tableName (.disk d), Toml.table t)] ++
      [(key (.disk d'), tableOf (.disk d'))]) = .ok (.disk d) := by
    rw [hcls]
    exact h3
  refine ⟨_, _, h2, h4, h5, ?_⟩
  rw [h5]
  intro hc
  exact hn (congrArg (fun x : DiskEl => x.d.tag) (Elm.disk.inj (Except.ok.inj hc)))

/-! ### C31: rotors -/

variable {sp : Scipy} {pd : Pandas} {fuel : ℕ} {a : RotorArgs} {r : Rotor}

/-- **C31** A rotor whose elements are neither seals nor 6-dof point masses is written and read back:
the loaded rotor has the same elements in the same order, the same limits of speed and all the same
derived data; only its tag is the default one. -/
theorem C31_roundtrip_partial (h : init pd fuel a = some (.ok r)) (hm : ∀ e ∈ argElements a, Constructed sp e)
    (hs : ∀ e ∈ argElements a, Faithful e) :
    ∃ f, saveRotor r = .ok f ∧ loadRotor sp pd fuel f = some (.ok { r with tag := "Rotor 0" }) := by
  have hb := init_ok h
  obtain ⟨f, h1, h2⟩ := load_save (sp := sp) h
    (made_elements h hm fun e he => savable_of_faithful (hs e he))
  refine ⟨f, h1, ?_⟩
  have hbr : ∀ b ∈ r.bearings, halved b = b := by
    intro b hbm
    rw [hb.bearings, (parts_br_perm a).mem_iff] at hbm
    simp only [tagBearings, List.mem_mapIdx] at hbm
    obtain ⟨i, hi, rfl⟩ := hbm
    have := hs (.brg a.bearings[i]) (by
      simp only [argElements, List.mem_append, List.mem_map]
      exact .inl (.inr ⟨_, List.getElem_mem hi, rfl⟩))
    generalize a.bearings[i] = c at this ⊢
    rcases c with ⟨sl, c⟩ | c
    · cases this; rfl
    · rfl
  have e1 : r.bearings.map halved = r.bearings := by
    rw [List.map_congr_left hbr, List.map_id']
  have e2 : (r.placed.map fun x => (reread x.1, x.2)) = r.placed := by
    conv_rhs => rw [← List.map_id r.placed]
    refine List.map_congr_left fun x hx => ?_
    have hx' : x.1 ∈ r.elements := List.mem_map.2 ⟨x, hx, rfl⟩
    have : reread x.1 = x.1 := by
      rcases (mem_elements hb _).1 hx' with ⟨s, -, he⟩ | ⟨s, -, he⟩ | ⟨s, hs', he⟩ | ⟨s, -, he⟩
      · rw [he]; rfl
      · rw [he]; rfl
      · rw [he]; exact congrArg Elm.brg (hbr s hs')
      · rw [he]; rfl
    rw [this]
    rfl
  rw [h2, e1, e2]

/-- **C31** In general, seals come back with half their scale factor; everything else is as it was,
except the tag. -/
theorem C31_reread_partial (h : init pd fuel a = some (.ok r)) (hm : ∀ e ∈ argElements a, Constructed sp e)
    (hs : ∀ e ∈ argElements a, Savable e) :
    ∃ f, saveRotor r = .ok f ∧ loadRotor sp pd fuel f = some (.ok { r with
      bearings := r.bearings.map halved, placed := r.placed.map fun x => (reread x.1, x.2)
      tag := "Rotor 0" }) :=
  load_save h (made_elements h hm hs)

/-- **C31** The file of a rotor has a table of its parameters, followed by one table for each element
in the order of the elements, each under the name of its class and its tag; no two tables have the
same name, and each table gives back its element. -/
theorem C31_tables (h : init pd fuel a = some (.ok r)) (hm : ∀ e ∈ argElements a, Constructed sp e)
    (hs : ∀ e ∈ argElements a, Savable e) :
    ∃ f, saveRotor r = .ok f ∧ f.keys = "parameters" :: r.elements.map tableName ∧ f.keys.Nodup ∧
      ∀ e ∈ r.elements, ∃ t, (tableName e, t) ∈ f ∧ readData sp (classOf e) t = .ok (reread e) := by
  have hm' := made_elements h hm hs
  have e1 : r.elements.map tableName = r.elements.map key :=
    List.map_congr_left fun e _ => tableName_eq e
  have e2 : Dict.keys (("parameters", Toml.table (parameters r)) ::
      r.elements.map fun e => (key e, tableOf e)) = "parameters" :: r.elements.map key := by
    simp [Dict.keys, Function.comp_def]
  refine ⟨_, saveRotor_eq h hm', by rw [e1, e2], ?_, ?_⟩
  · rw [e2, List.nodup_cons]
    refine ⟨fun hc => ?_, keys_nodup h⟩
    obtain ⟨e, -, he⟩ := List.mem_map.1 hc
    exact key_ne_parameters e he
  · intro e he
    obtain ⟨t, h1, h2⟩ := data_reread (hm' e he).1 (hm' e he).2
    refine ⟨tableOf e, List.mem_cons_of_mem _ (List.mem_map.2 ⟨e, he, by rw [tableName_eq]⟩), ?_⟩
    rw [classOf_eq, tableOf, h1]
    exact h2

/-- **C31** The tag of a rotor is lost: a rotor that is not called "Rotor 0" does not come back. -/
theorem C31_tag_false (h : init pd fuel a = some (.ok r)) (hm : ∀ e ∈ argElements a, Constructed sp e)
    (hs : ∀ e ∈ argElements a, Savable e) {t : String} (ht : a.tag = some t) (h0 : t ≠ "Rotor 0") :
    ∃ f r', saveRotor r = .ok f ∧ loadRotor sp pd fuel f = some (.ok r') ∧ r.tag = t ∧ r'.tag ≠ t := by
  obtain ⟨f, h1, h2⟩ := C31_reread_partial h hm hs
  refine ⟨f, _, h1, h2, ?_, Ne.symm h0⟩
  rw [(limits h).2.2.2, ht]
  rfl

/-- **C31** does not hold of rotors with seals: a seal with a scale factor other than zero comes back
as another seal, and is not among the bearings of the loaded rotor in its place. -/
theorem C31_seal_false (h : init pd fuel a = some (.ok r)) (hm : ∀ e ∈ argElements a, Constructed sp e)
    (hs : ∀ e ∈ argElements a, Savable e) {i : ℕ} {b : BearingElement}
    (hi : r.bearings[i]? = some (.brg true b)) (hb : b.scale_factor ≠ 0) :
    ∃ f r', saveRotor r = .ok f ∧ loadRotor sp pd fuel f = some (.ok r') ∧
      r'.bearings[i]? = some (.brg true { b with scale_factor := b.scale_factor / 2 }) ∧
      r'.bearings ≠ r.bearings := by
  obtain ⟨f, h1, h2⟩ := C31_reread_partial h hm hs
  have h3 : (r.bearings.map halved)[i]? =
      some (.brg true { b with scale_factor := b.scale_factor / 2 }) := by
    rw [List.getElem?_map, hi]
    rfl
  refine ⟨f, _, h1, h2, h3, fun hc => ?_⟩
  dsimp only at hc
  rw [hc, hi] at h3
  have := congrArg (fun x : BearingElement => x.scale_factor)
    (BrgEl.brg.inj (Option.some.inj h3)).2
  dsimp only at this
  apply hb
  linarith

/-- **C31** A rotor with a 6-dof point mass cannot be saved. -/
theorem C31_pm6_false {p : PointMass6DoF} (hp : PmEl.pm6 p ∈ r.pms)
    (h : init pd fuel a = some (.ok r)) : ∃ e, saveRotor r = .error e := by
  have hel : Elm.pm (.pm6 p) ∈ r.elements :=
    (mem_elements (init_ok h) _).2 (.inr (.inr (.inr ⟨_, hp, rfl⟩)))
  unfold saveRotor
  generalize Toml.dump [("parameters", parameters r)] = f
  generalize r.elements = l at hel
  induction l generalizing f with
  | nil => cases hel
  | cons x l ih =>
    rw [List.foldlM_cons]
    cases hx : save x (some f) with
    | error e => exact ⟨e, rfl⟩
    | ok f' =>
      rcases List.mem_cons.1 hel with rfl | hl
      · rw [C30_pm6_false] at hx
        cases hx
      · exact ih f' hl

/-! ### Non-vacuity -/

/-- A material that the constructor returns. -/
noncomputable def savedMaterial : Material := ⟨"Steel", 7810, 208e9, 80e9, 3 / 10, "#525252"⟩

theorem savedMaterial_made : MadeMaterial savedMaterial := by
  refine ⟨"Steel", 7810, some 208e9, some 80e9, none, "#525252", ?_⟩
  have h : Material.pyDiv (208e9 : ℝ) (2 * 80e9) = .ok (13 / 10) := by
    unfold Material.pyDiv
    rw [if_neg (by norm_num)]
    norm_num
  unfold Material.init
  rw [if_neg (by decide), if_neg (by simp [Material.given])]
  simp only [h, bind, Except.bind, savedMaterial]
  norm_num

/-- A tapered shaft element without node and tag. -/
noncomputable def savedShaft : ShaftElement :=
  ⟨1 / 4, 1 / 100, 1 / 20, 0, 1 / 10, savedMaterial, none, 100, 0, true, true, true, "cowper", none, 1,
    1⟩

theorem savedShaft_made : MadeShaft savedShaft := by
  have hp : savedShaft.beam.Physical := by
    constructor <;> norm_num [savedShaft, savedMaterial, ShaftElement.beam]
  obtain ⟨L, idl, odl, idr, odr, mat, n, af, tq, sh, ro, gy, me, tag, al, be, hi⟩ :=
    ShaftLemmas.facts_built (ShaftLemmas.physical_facts hp (Or.inr rfl))
  obtain ⟨rfl, -, -⟩ := shaft_init_inv hi none none
  exact ⟨_, _, _, _, _, _, _, _, _, _, _, _, _, _, _, _, savedMaterial_made, hi⟩

/-- A rotor of two shaft elements, a disk, two bearings, one of which stands on a point mass that a
further bearing holds, and, if `sl`, a seal in place of the bearing at node 2. -/
noncomputable def savedArgs (sl : Bool) : RotorArgs where
  shaft := [.list [.el ⟨false, savedShaft⟩, .el ⟨false, savedShaft⟩]]
  disks := [⟨false, ⟨1, 30, 1, 2, some "impeller", 1, ""⟩⟩]
  bearings := [.brg false (exBrg 3 none 1e7 10), .brg false (exBrg 0 (some 3) 1e6 100),
    .brg sl (exBrg 2 none 1e6 100)]
  pms := [.pm ⟨some 3, some 10, 10, 10, none, ""⟩]
  rated_w := some 100
  tag := some "compressor"

theorem savedArgs_wf (sl : Bool) : WellFormed false 2 (savedArgs sl) where
  pos := by norm_num
  nodes := by
    intro k
    show k ∈ [0, 1] ↔ k < 2
    simp; omega
  len := by
    intro e he
    simp [savedArgs, shaftList, Nest.flattenAll, Nest.flatten] at he
    subst he
    norm_num [savedShaft]
  shaft_six := by
    intro e he
    simp [savedArgs, shaftList, Nest.flattenAll, Nest.flatten] at he
    subst he; rfl
  disk_six := by intro e he; simp [savedArgs] at he; subst he; rfl
  brg_six := by
    intro e he; simp [savedArgs] at he
    rcases he with rfl | rfl | rfl <;> rfl
  disk_on := by intro e he; simp [savedArgs] at he; subst he; norm_num
  brg_nodes := by simp [savedArgs, BrgEl.n, BrgEl.base, exBrg]
  brg_on := by
    intro e he; simp [savedArgs] at he
    rcases he with rfl | rfl | rfl
    · right; exact ⟨_, List.mem_cons_self, rfl⟩
    · left; norm_num [BrgEl.n, BrgEl.base, exBrg]
    · left; norm_num [BrgEl.n, BrgEl.base, exBrg]
  brg_linked := by
    intro e he h; simp [savedArgs] at he
    rcases he with rfl | rfl | rfl
    · exact ⟨_, List.mem_cons_of_mem _ List.mem_cons_self, rfl⟩
    · norm_num [BrgEl.n, BrgEl.base, exBrg] at h
    · norm_num [BrgEl.n, BrgEl.base, exBrg] at h
  brg_order := by
    intro e he c hc h hl; simp [savedArgs] at he hc
    rcases he with rfl | rfl | rfl <;> rcases hc with rfl | rfl | rfl <;>
      simp [BrgEl.n, BrgEl.n_link, BrgEl.base, exBrg] at h hl ⊢
  pm_on := by
    intro p hp; simp [savedArgs] at hp; subst hp
    exact ⟨_, List.mem_cons_self, rfl⟩
  tags := by cases sl <;> decide

/-- A seal that the constructor returns: the scale factor is half of the argument. -/
theorem exSeal_made (sp : Scipy) (n : ℕ) (link : Option ℕ) (k c : ℝ) :
    Constructed sp (.brg (.brg true (exBrg n link k c))) := by
  refine ⟨{ n := n, kxx := .scalar k, cxx := .scalar c, n_link := link, color := ""
            scale_factor := 2 }, ?_⟩
  unfold sealInit
  norm_num
  exact exBrg_init sp n link k c

theorem savedArgs_made (sp : Scipy) (sl : Bool) :
    (∀ e ∈ argElements (savedArgs sl), Constructed sp e ∧ Savable e) ∧
      (sl = false → ∀ e ∈ argElements (savedArgs sl), Faithful e) := by
  constructor
  · intro e he
    simp only [argElements, savedArgs, Nest.flattenAll, Nest.flatten, List.append_nil, List.nil_append,
      List.map_cons, List.map_nil, List.cons_append, List.mem_cons, List.not_mem_nil, or_false] at he
    rcases he with rfl | rfl | rfl | rfl | rfl | rfl | rfl
    · exact ⟨savedShaft_made, trivial⟩
    · exact ⟨savedShaft_made, trivial⟩
    · exact ⟨⟨_, _, _, _, _, _, _, rfl⟩, trivial⟩
    · exact ⟨⟨_, exBrg_init sp _ _ _ _⟩, trivial⟩
    · exact ⟨⟨_, exBrg_init sp _ _ _ _⟩, trivial⟩
    · cases sl
      · exact ⟨⟨_, exBrg_init sp _ _ _ _⟩, trivial⟩
      · exact ⟨exSeal_made sp _ _ _ _, trivial⟩
    · exact ⟨⟨some 3, some 10, some 10, some 10, none, "", rfl⟩, trivial⟩
  · rintro rfl e he
    simp only [argElements, savedArgs, Nest.flattenAll, Nest.flatten, List.append_nil, List.nil_append,
      List.map_cons, List.map_nil, List.cons_append, List.mem_cons, List.not_mem_nil, or_false] at he
    rcases he with rfl | rfl | rfl | rfl | rfl | rfl | rfl <;> first | trivial | rfl

/-- A shaft element, a seal and the elements of a file with two disks. -/
example (sp : Scipy) : Constructed sp (.shaft ⟨false, savedShaft⟩) ∧ Faithful (.shaft ⟨false, savedShaft⟩) ∧
    Constructed sp (.brg (.brg true (exBrg 2 none 1e6 100))) ∧ (exBrg 2 none 1e6 100).scale_factor ≠ 0 :=
  ⟨savedShaft_made, trivial, exSeal_made sp _ _ _ _, by norm_num [exBrg]⟩

/-- The rotor with two bearings comes back. -/
example (sp : Scipy) : ∃ r f, init exPandas 10 (savedArgs false) = some (.ok r) ∧
    r.elements.length = 7 ∧ saveRotor r = .ok f ∧ f.length = 8 ∧
    loadRotor sp exPandas 10 f = some (.ok { r with tag := "Rotor 0" }) := by
  obtain ⟨r, h1, -⟩ := accepts exPandas_sorts (savedArgs_wf false) (fuel := 10) (by simp [savedArgs])
  have hm := savedArgs_made sp false
  obtain ⟨f, h2, h3⟩ := C31_roundtrip_partial (sp := sp) h1 (fun e he => (hm.1 e he).1) (hm.2 rfl)
  obtain ⟨f', h4, h5, -⟩ := C31_tables (sp := sp) h1 (fun e he => (hm.1 e he).1)
    fun e he => (hm.1 e he).2
  rw [h2] at h4
  cases h4
  have hl : r.elements.length = 7 := by
    have := (C21_tags h1).1.length_eq
    simp only [List.length_map] at this
    rw [this]
    decide
  refine ⟨r, f, h1, hl, h2, ?_, h3⟩
  have := congrArg List.length h5
  simpa [Dict.keys, hl] using this

/-- The rotor with a seal does not. -/
example (sp : Scipy) : ∃ (r : Rotor) (i : ℕ) (b : BearingElement),
    init exPandas 10 (savedArgs true) = some (.ok r) ∧
    r.bearings[i]? = some (.brg true b) ∧ b.scale_factor ≠ 0 ∧
    ∀ e ∈ argElements (savedArgs true), Constructed sp e ∧ Savable e := by
  obtain ⟨r, h1, -⟩ := accepts exPandas_sorts (savedArgs_wf true) (fuel := 10) (by simp [savedArgs])
  have hmem : BrgEl.brg true { exBrg 2 none 1e6 100 with tag := some "Seal 2" } ∈ r.bearings := by
    rw [(init_ok h1).bearings, (parts_br_perm _).mem_iff]
    exact List.mem_cons_of_mem _ (List.mem_cons_of_mem _ List.mem_cons_self)
  obtain ⟨i, hi⟩ := List.mem_iff_getElem?.1 hmem
  exact ⟨r, i, _, h1, hi, by norm_num [exBrg], (savedArgs_made sp true).1⟩

/-- Two disks in a file. -/
example : ∃ d d' : DiskEl, d.six = d'.six ∧ d.d.tag ≠ d'.d.tag ∧ d.d.tag.isSome ∧ d'.d.tag.isSome :=
  ⟨⟨false, ⟨1, 30, 1, 2, some "a", 1, ""⟩⟩, ⟨false, ⟨2, 30, 1, 2, some "b", 1, ""⟩⟩, rfl, by simp,
    rfl, rfl⟩

end Ross.Props
