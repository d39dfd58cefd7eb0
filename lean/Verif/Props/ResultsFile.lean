import Verif.Lemmas.ResultsFile
import Verif.Props.Persist

/-!
# Saving and loading results (C105)
-/

namespace Ross.Props

open ResultsFile Spec ResultsFileLemmas

variable {T : Texts} {sp : Scipy} {pd : Pandas} {fuel : ℕ} {fs : Files} {path : String}

theorem optional_iff (c : Cls) (k : String) : k ∈ c.optional ↔ MayMiss c k := by
  cases c <;> simp [Cls.optional, MayMiss]

theorem rotorFile_iff (path q : String) : RotorFile path q ↔ q = aux path := by
  constructor
  · rintro ⟨stem, ext, h1, h2, h3⟩
    have hl : path.toList.length - 5 = stem.length := by
      rw [h1, List.length_append]
      rcases h2 with h2 | ⟨rfl, h2⟩
      · omega
      · simp only [List.length_nil]
        omega
    rw [← String.toList_inj, h3, aux, String.toList_ofList, hl, h1, List.take_left, List.drop_left]
    rfl
  · rintro rfl
    refine ⟨_, _, (List.take_append_drop (path.toList.length - 5) _).symm, ?_, String.toList_ofList⟩
    by_cases h : 5 ≤ path.toList.length
    · left
      rw [List.length_drop]
      omega
    · right
      rw [show path.toList.length - 5 = 0 by omega]
      simp only [List.take_zero, List.drop_zero, true_and]
      omega

/-- Values that can be written: no arrays without dimensions, and `None` only where it is the default. -/
def Savable105 (o : Obj) : Prop :=
  ∀ k a, (k, a) ∈ o.args → k ≠ "rotor" →
    (∀ s, a ≠ .text0 s) ∧ (∀ z, a ≠ .cplx0 z) ∧ (∀ t, a ≠ .dict0 t) ∧ (a = .null → MayMiss o.cls k)

/-- The rotor of the results, if there is one, can be saved. -/
def RotorOk (sp : Scipy) (pd : Pandas) (fuel : ℕ) (o : Obj) : Prop :=
  ∀ a, ("rotor", a) ∈ o.args → ∃ r, a = .rotor r ∧ PlainRotor sp pd fuel r

theorem loads {o : Obj} (hm : MadeResults o) (hc : o.cls ≠ .campbell) (hf : FirstOf fs path o.cls)
    (hv : Savable105 o) (hr : RotorOk sp pd fuel o) :
    ∃ fs' r, save T fs path o = (fs', .ok ()) ∧
      (∀ r', ("rotor", Arg.rotor r') ∈ o.args → r = { r' with tag := "Rotor 0" }) ∧
      load T sp pd fuel fs' o.cls path = some (.ok ⟨o.cls, o.args.map fun p => (p.1, back T r p)⟩) := by
  obtain ⟨d, hb, hd⟩ := before_first hf
  have hn : o.args.keys.Nodup := by
    unfold Dict.keys; rw [hm]; exact partsOf_nodup _
  have hw : ∀ p ∈ o.args, (∃ v, write T p.2 = .ok (some v)) ∨ (p.2 = .null ∧ p.1 ∈ o.cls.optional) := by
    rintro ⟨k, a⟩ hp
    by_cases hk : k = "rotor"
    · subst hk
      obtain ⟨r, rfl, -⟩ := hr a hp
      exact .inl ⟨_, rfl⟩
    · obtain ⟨h1, h2, h3, h4⟩ := hv k a hp hk
      cases a with
      | null => exact .inr ⟨rfl, (optional_iff _ _).2 (h4 rfl)⟩
      | text0 s => exact absurd rfl (h1 s)
      | cplx0 s => exact absurd rfl (h2 s)
      | dict0 s => exact absurd rfl (h3 s)
      | _ => exact .inl ⟨_, rfl⟩
  have hwt : writeTable T (keptArgs o) = .ok (o.args.filterMap (written T)) := by
    rw [keptArgs_ne hc]
    refine writeTable_eq fun p hp => ?_
    rcases hw p hp with ⟨v, h⟩ | ⟨h, -⟩
    · exact ⟨_, h⟩
    · rw [h]; exact ⟨_, rfl⟩
  have hs0 : save T fs path o = saveAux (fs.set path (.results ((dropModal d).set o.cls.name
      (o.args.filterMap (written T))))) path o.args := by
    unfold save
    rw [hb]
    dsimp only
    rw [hwt]
  by_cases hk : "rotor" ∈ o.cls.params
  · have hk' : "rotor" ∈ o.args.map Prod.fst := by rw [hm]; exact hk
    obtain ⟨⟨k, a⟩, hp, rfl⟩ := List.mem_map.1 hk'
    obtain ⟨r, rfl, ar, h1, h2, h3⟩ := hr a hp
    obtain ⟨f, h4, h5⟩ := C31_roundtrip_partial h1 h2 h3
    have hg := get?_of_mem hn hp
    refine ⟨(fs.set path (.results ((dropModal d).set o.cls.name
      (o.args.filterMap (written T))))).set (aux path) (.rotor f), { r with tag := "Rotor 0" }, ?_, ?_, ?_⟩
    · rw [hs0]
      unfold saveAux
      rw [hg]
      dsimp only
      rw [h4]
    · intro r' hr'
      have := get?_of_mem hn hr'
      rw [hg] at this
      cases this
      rfl
    · refine roundtrip (d := d) hm hc hd ?_ ?_ ?_
      · rw [Dict.get?_set_ne _ _ (aux_ne path), Dict.get?_set_self]
      · intro _
        unfold loadAux
        rw [Dict.get?_set_self]
        exact h5
      · intro p hp
        exact (hw p hp).imp_right And.right
  · have hg : o.args.get? "rotor" = none := by
      apply Dict.get?_none_of_not_mem
      unfold Dict.keys
      rw [hm]; exact hk
    refine ⟨fs.set path (.results ((dropModal d).set o.cls.name (o.args.filterMap (written T)))), anyRotor, ?_, ?_, ?_⟩
    · rw [hs0]
      unfold saveAux
      rw [hg]
    · intro r' hr'
      exact absurd (by rw [← partsOf_eq, ← hm]; exact List.mem_map.2 ⟨_, hr', rfl⟩) hk
    · exact roundtrip (d := d) hm hc hd (Dict.get?_set_self _ _ _) (fun h => absurd h hk)
        fun p hp => (hw p hp).imp_right And.right

/-- **C105** Results that are saved to a new file, or over results of the same class at its beginning, are loaded
as they were, if every value is a number, a truth value, an array of real numbers, of complex numbers the longest
of which has a text of 40 to 49 characters, or of texts the longest of which is not of that length; optional
values may be missing, and the rotor has to be one that can be saved (C31), whose tag is lost.  Campbell diagrams
are left out (`C105_campbell_false`). -/
theorem C105_load_partial {o : Obj} (hm : MadeResults o) (hc : o.cls ≠ .campbell)
    (hf : FirstOf fs path o.cls)
    (hv : ∀ k a, (k, a) ∈ o.args → k ≠ "rotor" → Survives T a ∨ (a = .null ∧ MayMiss o.cls k))
    (hr : ∀ a, ("rotor", a) ∈ o.args → ∃ r, a = .rotor r ∧ PlainRotor sp pd fuel r) :
    ∃ fs', save T fs path o = (fs', .ok ()) ∧
      load T sp pd fuel fs' o.cls path = some (.ok ⟨o.cls, o.args.map fun p => (p.1, untagged p.2)⟩) := by
  have hs : Savable105 o := by
    intro k a ha hk
    rcases hv k a ha hk with h | ⟨rfl, h⟩
    · refine ⟨?_, ?_, ?_, ?_⟩
      all_goals intros; subst_vars
      all_goals first | cases h | (intro hc; subst hc; cases h)
    · exact ⟨by simp, by simp, by simp, fun _ => h⟩
  obtain ⟨fs', r, h1, h2, h3⟩ := loads (T := T) hm hc hf hs hr
  refine ⟨fs', h1, ?_⟩
  rw [h3]
  congr 3
  refine List.map_congr_left fun p hp => ?_
  obtain ⟨k, a⟩ := p
  unfold back
  by_cases hk : k = "rotor"
  · subst hk
    obtain ⟨r', rfl, -⟩ := hr a hp
    simp [write, untagged, h2 r' hp]
  · rcases hv k a hp hk with h | ⟨rfl, -⟩
    · obtain ⟨v, h4, h5⟩ := survives_read h
      simp only [h4, if_neg hk, h5]
      cases a <;> first | rfl | cases h
    · rfl

/-- Loaded results differ if a value does. -/
theorem differs {o o' : Obj} (hm : MadeResults o) {k : String} {a b : Arg} (ha : (k, a) ∈ o.args)
    (hb : (k, b) ∈ o'.args) (h : a ≠ b) : o' ≠ o := by
  rintro rfl
  have hn : o'.args.keys.Nodup := by
    unfold Dict.keys; rw [hm]; exact partsOf_nodup _
  have h1 := get?_of_mem hn ha
  rw [get?_of_mem hn hb] at h1
  exact h (Option.some.inj h1).symm

theorem changed {o : Obj} (hm : MadeResults o) (hc : o.cls ≠ .campbell) (hf : FirstOf fs path o.cls)
    (hv : Savable105 o) (hr : RotorOk sp pd fuel o) {k : String} {a b : Arg} {v : FVal} (ha : (k, a) ∈ o.args)
    (hk : k ≠ "rotor") (hw : write T a = .ok (some v)) (hb : read T v = b) (h : a ≠ b) :
    ∃ fs' o', save T fs path o = (fs', .ok ()) ∧ load T sp pd fuel fs' o.cls path = some (.ok o') ∧
      (k, b) ∈ o'.args ∧ o' ≠ o := by
  obtain ⟨fs', r, h1, -, h3⟩ := loads (T := T) hm hc hf hv hr
  have hm' : (k, b) ∈ (⟨o.cls, o.args.map fun p => (p.1, back T r p)⟩ : Obj).args :=
    List.mem_map.2 ⟨_, ha, by simp [back, hw, hk, hb]⟩
  exact ⟨fs', _, h1, h3, hm', differs hm ha hm' h⟩

/-- **C105** does not hold of arrays of complex numbers whose texts are all shorter than 40 characters, such as
the response to no force at all, or that of an undamped rotor: they are loaded as arrays of texts. -/
theorem C105_complex_false {o : Obj} (hm : MadeResults o) (hc : o.cls ≠ .campbell) (hf : FirstOf fs path o.cls)
    (hv : Savable105 o) (hr : RotorOk sp pd fuel o) {k : String} {l : List ℂ} (ha : (k, .cplx l) ∈ o.args)
    (hk : k ≠ "rotor") (hl : l ≠ []) (hs : ∀ z ∈ l, (T.str z).length < 40) :
    ∃ fs' o', save T fs path o = (fs', .ok ()) ∧ load T sp pd fuel fs' o.cls path = some (.ok o') ∧
      (k, .texts (l.map T.str)) ∈ o'.args ∧ o' ≠ o := by
  refine changed hm hc hf hv hr ha hk rfl ?_ (by simp)
  rw [read_texts (by simpa using hl), if_neg]
  rw [isStrType_iff]
  rintro ⟨⟨s, hs', h⟩, -⟩
  obtain ⟨z, hz, rfl⟩ := List.mem_map.1 hs'
  have := hs z hz
  omega

/-- **C105** does not hold of dictionaries, such as the forces of the static analysis: they are loaded as arrays
without dimensions. -/
theorem C105_dict_false {o : Obj} (hm : MadeResults o) (hc : o.cls ≠ .campbell) (hf : FirstOf fs path o.cls)
    (hv : Savable105 o) (hr : RotorOk sp pd fuel o) {k : String} {t : List (String × ℝ)} (ha : (k, .dict t) ∈ o.args)
    (hk : k ≠ "rotor") :
    ∃ fs' o', save T fs path o = (fs', .ok ()) ∧ load T sp pd fuel fs' o.cls path = some (.ok o') ∧
      (k, .dict0 t) ∈ o'.args ∧ o' ≠ o :=
  changed hm hc hf hv hr ha hk rfl rfl (by simp)

/-- Writing an array without dimensions. -/
theorem write_none_dims {l : Dict String Arg} {k : String} {t : List (String × ℝ)} (h : (k, .dict0 t) ∈ l) :
    writeTable T l = .error .typeError := by
  cases hw : writeTable T l with
  | error e => rw [writeTable_error hw]
  | ok x =>
    obtain ⟨v, hv⟩ := writeTable_inv hw _ h
    cases hv

/-- **C105** Results that were loaded and had a dictionary cannot be saved again, and the attempt empties the
file: all the results that were in it are lost. -/
theorem C105_again_false {o : Obj} (hm : MadeResults o) (hc : o.cls ≠ .campbell) (hf : FirstOf fs path o.cls)
    (hv : Savable105 o) (hr : RotorOk sp pd fuel o) {k : String} {t : List (String × ℝ)} (ha : (k, .dict t) ∈ o.args)
    (hk : k ≠ "rotor") :
    ∃ fs' o', save T fs path o = (fs', .ok ()) ∧ load T sp pd fuel fs' o.cls path = some (.ok o') ∧
      ∃ fs'', save T fs' path o' = (fs'', .error .typeError) ∧ fs''.get? path = some (.results []) := by
  obtain ⟨fs', r, h1, -, h3⟩ := loads (T := T) hm hc hf hv hr
  refine ⟨fs', _, h1, h3, ?_⟩
  obtain ⟨d, -, -, hg, -⟩ := save_inv h1
  have hm' : (k, Arg.dict0 t) ∈ keptArgs ⟨o.cls, o.args.map fun p => (p.1, back T r p)⟩ := by
    have h0 : keptArgs ⟨o.cls, o.args.map fun p => (p.1, back T r p)⟩ = o.args.map fun p => (p.1, back T r p) :=
      if_neg hc
    rw [h0]
    exact List.mem_map.2 ⟨_, ha, by simp [back, write, hk, ResultsFile.read]⟩
  have he := write_none_dims (T := T) hm'
  refine ⟨fs'.set path (.results []), ?_, Dict.get?_set_self _ _ _⟩
  unfold save before
  rw [hg]
  dsimp only
  rw [he]

/-- **C105** Of a Campbell diagram, the numbers come back; the modal results are lost, and the function that
computes them comes back as something else. -/
theorem C105_campbell_partial {a1 a2 a3 a4 a5 a6 a7 : Arg} {s : String} (h1 : Survives T a1)
    (h2 : Survives T a2) (h3 : Survives T a3) (h4 : Survives T a4) (h5 : Survives T a5) (h7 : Survives T a7)
    (hf : FirstOf fs path .campbell) :
    ∃ fs' b, save T fs path ⟨.campbell, [("speed_range", a1), ("wd", a2), ("log_dec", a3), ("damping_ratio", a4),
        ("whirl_values", a5), ("modal_results", a6), ("number_dof", a7), ("run_modal", .other s)]⟩ = (fs', .ok ()) ∧
      load T sp pd fuel fs' .campbell path = some (.ok ⟨.campbell, [("speed_range", a1), ("wd", a2), ("log_dec", a3),
        ("damping_ratio", a4), ("whirl_values", a5), ("modal_results", .null), ("number_dof", a7),
        ("run_modal", b)]⟩) ∧ ∀ s', b ≠ .other s' := by
  obtain ⟨v1, w1, r1⟩ := survives_read h1
  obtain ⟨v2, w2, r2⟩ := survives_read h2
  obtain ⟨v3, w3, r3⟩ := survives_read h3
  obtain ⟨v4, w4, r4⟩ := survives_read h4
  obtain ⟨v5, w5, r5⟩ := survives_read h5
  obtain ⟨v7, w7, r7⟩ := survives_read h7
  obtain ⟨d, hb, hd⟩ := before_first hf
  have hd' : dropModal d = [] ∨ (dropModal d).keys.head? = some Cls.campbell.name := by
    rw [keys_dropModal]
    rcases hd with rfl | hd
    · exact .inl rfl
    · exact .inr hd
  let t : FTable := [("speed_range", v1), ("wd", v2), ("log_dec", v3), ("damping_ratio", v4), ("whirl_values", v5),
    ("number_dof", v7), ("run_modal", .text s)]
  obtain ⟨ts, ht⟩ := values_set_head t hd'
  have hne : ∀ s', ResultsFile.read T (.text s) ≠ .other s' := read_text_ne s
  have hw : writeTable T (keptArgs ⟨.campbell, [("speed_range", a1), ("wd", a2), ("log_dec", a3),
      ("damping_ratio", a4), ("whirl_values", a5), ("modal_results", a6), ("number_dof", a7),
      ("run_modal", .other s)]⟩) = .ok t := by
    have w8 : write T (.other s) = .ok (some (.text s)) := rfl
    simp [keptArgs, Dict.del, writeTable, w1, w2, w3, w4, w5, w7, w8, bind, Except.bind, pure, Except.pure, t]
  refine ⟨fs.set path (.results ((dropModal d).set Cls.campbell.name t)), ResultsFile.read T (.text s), ?_, ?_, hne⟩
  · unfold save
    rw [hb]
    dsimp only
    rw [hw]
    simp [saveAux, Dict.get?]
  · unfold load
    rw [Dict.get?_set_self]
    dsimp only
    rw [ht]
    dsimp only
    have hr : readTable T sp pd fuel (fs.set path (.results ((dropModal d).set Cls.campbell.name t))) path t =
        some (.ok (t.map (readEntry T anyRotor))) := readTable_eq (by simp [t, Dict.keys])
    rw [hr]
    have hc : construct .campbell (Dict.set (t.map (readEntry T anyRotor)) "modal_results" .null) =
        .ok ⟨.campbell, [("speed_range", a1), ("wd", a2), ("log_dec", a3), ("damping_ratio", a4),
          ("whirl_values", a5), ("modal_results", .null), ("number_dof", a7),
          ("run_modal", ResultsFile.read T (.text s))]⟩ := by
      simp [construct, t, readEntry, Dict.set, Dict.keys, Cls.params, argument, Dict.get?, r1, r2, r3, r4, r5, r7,
        bind, Except.bind, pure, Except.pure]
    rw [Option.map_some]
    simp only [Except.bind, if_true]
    rw [hc]

/-- **C105** does not hold of Campbell diagrams: none comes back, since its function is lost. -/
theorem C105_campbell_false {o o' : Obj} {fs' : Files} (hm : MadeResults o) (hc : o.cls = .campbell)
    (hf : FirstOf fs path o.cls) {s : String} (ha : ("run_modal", .other s) ∈ o.args)
    (hs : save T fs path o = (fs', .ok ())) (hl : load T sp pd fuel fs' .campbell path = some (.ok o')) :
    o' ≠ o := by
  rw [← hc] at hl
  have h1 := entry hm hf hs hl ha rfl (by decide) (fun _ => by decide)
  exact differs hm ha h1 (Ne.symm (read_text_ne s s))

/-- **C105** Saving results touches no other file than theirs and that of their rotor, and keeps the results of
other classes in the file. -/
theorem C105_other {o : Obj} {fs' : Files} (hs : save T fs path o = (fs', .ok ())) :
    (∀ q, q ≠ path → ¬ RotorFile path q → fs'.get? q = fs.get? q) ∧
      ∃ d', fs'.get? path = some (.results d') ∧ ∀ d, fs.get? path = some (.results d) →
        ∀ k, k ≠ o.cls.name → k ≠ "CampbellResults" → d'.get? k = d.get? k := by
  obtain ⟨d, hb, -, hg, ho⟩ := save_inv hs
  refine ⟨fun q h1 h2 => ho q h1 fun h3 => h2 ((rotorFile_iff path q).2 h3), _, hg, fun d1 h1 k hk hk' => ?_⟩
  have : d = d1 := by
    simp only [before, h1] at hb
    exact (Except.ok.inj hb).symm
  subst this
  rw [Dict.get?_set_ne _ _ (Ne.symm hk), get?_dropModal hk']

/-- **C105** The rotor of results is saved beside them. -/
theorem C105_rotor_file {o : Obj} {fs' : Files} {r : Rotor} (hm : MadeResults o) (hr : ("rotor", .rotor r) ∈ o.args)
    (hs : save T fs path o = (fs', .ok ())) :
    ∃ q f, RotorFile path q ∧ Persist.saveRotor r = .ok f ∧ fs'.get? q = some (.rotor f) := by
  have hn : o.args.keys.Nodup := by
    unfold Dict.keys; rw [hm]; exact partsOf_nodup _
  have hg := get?_of_mem hn hr
  unfold save at hs
  cases hb : before fs path with
  | error e => rw [hb] at hs; simp at hs
  | ok d =>
    rw [hb] at hs
    dsimp only at hs
    cases hw : writeTable T (keptArgs o) with
    | error e => rw [hw] at hs; simp at hs
    | ok t =>
      rw [hw] at hs
      dsimp only [saveAux] at hs
      rw [hg] at hs
      dsimp only at hs
      cases hf : Persist.saveRotor r with
      | error e => rw [hf] at hs; simp at hs
      | ok f =>
        rw [hf] at hs
        obtain ⟨rfl, -⟩ := Prod.mk.inj hs
        exact ⟨_, f, (rotorFile_iff path _).2 rfl, rfl, Dict.get?_set_self _ _ _⟩

/-- **C105** does not hold of empty arrays of complex numbers or texts: they are loaded as empty arrays of real
numbers. -/
theorem C105_empty_false {o : Obj} (hm : MadeResults o) (hc : o.cls ≠ .campbell) (hf : FirstOf fs path o.cls)
    (hv : Savable105 o) (hr : RotorOk sp pd fuel o) {k : String} {a : Arg} (ha : (k, a) ∈ o.args)
    (hk : k ≠ "rotor") (he : a = .cplx [] ∨ a = .texts []) :
    ∃ fs' o', save T fs path o = (fs', .ok ()) ∧ load T sp pd fuel fs' o.cls path = some (.ok o') ∧
      (k, .real []) ∈ o'.args ∧ o' ≠ o := by
  rcases he with rfl | rfl
  · exact changed hm hc hf hv hr ha hk (v := .texts []) rfl rfl (by simp)
  · exact changed hm hc hf hv hr ha hk (v := .texts []) rfl rfl (by simp)

/-- **C105** does not hold of results that are saved to a file that begins with results of another class: to load
them gives a `TypeError`, if the others have any value that is not a parameter of theirs. -/
theorem C105_second_false {o₁ o₂ : Obj} (hm : MadeResults o₁) (hc : o₁.cls ≠ .campbell) (hne : o₁.cls ≠ o₂.cls)
    (hr : "rotor" ∉ partsOf o₁.cls) (hf : fs.get? path = none) {k : String} {a : Arg}
    (ha : (k, a) ∈ o₁.args) (hn : a ≠ .null) (hk : k ∉ partsOf o₂.cls) {fs₁ fs₂ : Files}
    (h1 : save T fs path o₁ = (fs₁, .ok ())) (h2 : save T fs₁ path o₂ = (fs₂, .ok ())) :
    load T sp pd fuel fs₂ o₂.cls path = some (.error .typeError) := by
  rw [partsOf_eq] at hr hk
  obtain ⟨d, hb, hw, hg, -⟩ := save_inv h1
  obtain ⟨d', hb', -, hg', -⟩ := save_inv h2
  have hd : d = [] := by
    simp only [before, hf] at hb
    exact (Except.ok.inj hb).symm
  subst hd
  rw [keptArgs_ne hc] at hg hw
  have hd' : d' = [(o₁.cls.name, o₁.args.filterMap (written T))] := by
    simp only [before, hg] at hb'
    exact (Except.ok.inj hb').symm
  subst hd'
  have hcn : o₁.cls.name ≠ "CampbellResults" := fun h => hc (name_campbell.1 h)
  have hvals : ∃ ts, (Dict.set (dropModal [(o₁.cls.name, o₁.args.filterMap (written T))]) o₂.cls.name
      ((keptArgs o₂).filterMap (written T))).values = o₁.args.filterMap (written T) :: ts := by
    have : o₁.cls.name ≠ o₂.cls.name := fun h => hne (name_inj h)
    exact ⟨[(keptArgs o₂).filterMap (written T)], by simp [dropModal, hcn, Dict.set, this, Dict.values]⟩
  obtain ⟨ts, hts⟩ := hvals
  have hrd : readTable T sp pd fuel fs₂ path (o₁.args.filterMap (written T)) =
      some (.ok ((o₁.args.filterMap (written T)).map (readEntry T anyRotor))) := by
    refine readTable_eq fun h => ?_
    exact absurd (by rw [← partsOf_eq, ← hm]; exact (written_keys (T := T) o₁.args).subset h) hr
  unfold load
  rw [hg']
  dsimp only
  rw [hts]
  dsimp only
  rw [hrd, Option.map_some]
  have hkr : k ≠ "rotor" := fun h => hr (by rw [← partsOf_eq, ← hm, ← h]; exact List.mem_map.2 ⟨_, ha, rfl⟩)
  obtain ⟨v, hwv⟩ := hw _ ha
  have hv' : ∃ v, write T a = .ok (some v) := by
    cases a with
    | null => exact absurd rfl hn
    | text0 s => cases hwv
    | cplx0 s => cases hwv
    | dict0 s => cases hwv
    | _ => exact ⟨_, rfl⟩
  obtain ⟨v', hv'⟩ := hv'
  have hkin : k ∈ Dict.keys ((o₁.args.filterMap (written T)).map (readEntry T anyRotor)) := by
    refine List.mem_map.2 ⟨readEntry T anyRotor (k, v'), List.mem_map.2 ⟨(k, v'), ?_, rfl⟩, rfl⟩
    exact List.mem_filterMap.2 ⟨_, ha, by simp [written, hv']⟩
  have hcons : ∀ t : Dict String Arg, k ∈ t.keys → construct o₂.cls t = .error .typeError := by
    intro t ht
    unfold construct
    rw [if_neg]
    intro hall
    rw [List.all_eq_true] at hall
    exact hk (by simpa using hall k ht)
  simp only [Except.bind]
  split
  · rw [hcons]
    rw [Dict.mem_keys_set]
    exact .inr hkin
  · rw [hcons _ hkin]

/-! ### Non-vacuity -/

/-- A text of 46 characters. -/
def longText : String := "(-1.2345678901234567e-05+3.21098765432109e-7j)"

/-- Two numbers and their texts. -/
noncomputable def exTexts : Texts where
  str z := if z = 0 then "0j" else longText
  parse s := if s = "0j" then some 0 else if s = longText then some ⟨-1, 3⟩ else none
  rotor _ := "Rotor"

/-- A response. -/
def exResponse (z : ℂ) : Obj :=
  ⟨.frequencyResponse, [("freq_resp", .cplx [z, 0]), ("velc_resp", .cplx [z]), ("accl_resp", .cplx [z]),
    ("speed_range", .real [0, 1]), ("number_dof", .num 4)]⟩

theorem exResponse_made (z : ℂ) : MadeResults (exResponse z) := rfl

theorem exResponse_survives : ∀ k a, (k, a) ∈ (exResponse ⟨-1, 3⟩).args → Survives exTexts a := by
  have hz : (⟨-1, 3⟩ : ℂ) ≠ 0 := fun h => by
    have := congrArg Complex.re h
    norm_num at this
  have hs : exTexts.str ⟨-1, 3⟩ = longText := if_neg hz
  have h0 : exTexts.str 0 = "0j" := if_pos rfl
  have hl : longText.length = 46 := by decide
  have hr : ReadBack exTexts ⟨-1, 3⟩ := by
    unfold ReadBack
    rw [hs]
    simp [exTexts, longText]
  have hr0 : ReadBack exTexts 0 := by
    unfold ReadBack
    rw [h0]
    simp [exTexts]
  have h00 : "0j".length = 2 := by decide
  intro k a h
  simp only [exResponse, List.mem_cons, Prod.mk.injEq, List.not_mem_nil, or_false] at h
  rcases h with ⟨-, rfl⟩ | ⟨-, rfl⟩ | ⟨-, rfl⟩ | ⟨-, rfl⟩ | ⟨-, rfl⟩ <;>
    simp [Survives, hs, h0, hl, hr, hr0, h00]

/-- The response with long texts comes back. -/
example (sp : Scipy) (pd : Pandas) : ∃ fs', save exTexts [] "a.toml" (exResponse ⟨-1, 3⟩) = (fs', .ok ()) ∧
    load exTexts sp pd 1 fs' .frequencyResponse "a.toml" = some (.ok (exResponse ⟨-1, 3⟩)) :=
  C105_load_partial (exResponse_made _) (by decide) (.inl rfl)
    (fun k a h _ => .inl (exResponse_survives k a h)) fun a h => by simp [exResponse] at h

theorem exResponse_savable (z : ℂ) : Savable105 (exResponse z) := by
  intro k a h _
  simp only [exResponse, List.mem_cons, Prod.mk.injEq, List.not_mem_nil, or_false] at h
  rcases h with ⟨-, rfl⟩ | ⟨-, rfl⟩ | ⟨-, rfl⟩ | ⟨-, rfl⟩ | ⟨-, rfl⟩ <;> simp

/-- The response that is zero does not. -/
example (sp : Scipy) (pd : Pandas) : ∃ fs' o', save exTexts [] "a.toml" (exResponse 0) = (fs', .ok ()) ∧
    load exTexts sp pd 1 fs' .frequencyResponse "a.toml" = some (.ok o') ∧
      ("freq_resp", .texts ["0j", "0j"]) ∈ o'.args ∧ o' ≠ exResponse 0 := by
  have h0 : exTexts.str 0 = "0j" := if_pos rfl
  have h := C105_complex_false (T := exTexts) (sp := sp) (pd := pd) (fuel := 1) (fs := []) (path := "a.toml")
    (exResponse_made 0) (by decide) (.inl rfl) (exResponse_savable 0) (fun a h => by simp [exResponse] at h)
    (k := "freq_resp") (l := [0, 0]) List.mem_cons_self (by decide) (by simp)
    (fun z hz => by
      have : z = 0 := by simpa using hz
      rw [this, h0]; decide)
  simp only [List.map_cons, List.map_nil, h0] at h
  exact h

/-- Results of a static analysis. -/
def exStatic : Obj :=
  ⟨.static, [("deformation", .real [0, 1]), ("Vx", .real [1, 2]), ("Bm", .real [3]), ("w_shaft", .real [1]),
    ("disk_forces", .dict [("Disk 0", 10)]), ("bearing_forces", .dict [("Bearing 0", 5)]), ("nodes", .real [0, 1]),
    ("nodes_pos", .real [0, 1]), ("Vx_axis", .real [0, 1])]⟩

theorem exStatic_savable : Savable105 exStatic := by
  intro k a h _
  simp only [exStatic, List.mem_cons, Prod.mk.injEq, List.not_mem_nil, or_false] at h
  rcases h with ⟨-, rfl⟩ | ⟨-, rfl⟩ | ⟨-, rfl⟩ | ⟨-, rfl⟩ | ⟨-, rfl⟩ | ⟨-, rfl⟩ | ⟨-, rfl⟩ | ⟨-, rfl⟩ | ⟨-, rfl⟩ <;> simp

/-- They can be saved and loaded, but not saved again. -/
example (T : Texts) (sp : Scipy) (pd : Pandas) : ∃ fs' o', save T [] "a.toml" exStatic = (fs', .ok ()) ∧
    load T sp pd 1 fs' .static "a.toml" = some (.ok o') ∧
      ∃ fs'', save T fs' "a.toml" o' = (fs'', .error .typeError) ∧ fs''.get? "a.toml" = some (.results []) :=
  C105_again_false (o := exStatic) rfl (by decide) (.inl rfl) exStatic_savable
    (fun a h => by simp [exStatic] at h) (k := "disk_forces") (t := [("Disk 0", 10)])
    (by simp [exStatic]) (by decide)

/-- A response saved after them in the same file cannot be loaded. -/
example (T : Texts) (sp : Scipy) (pd : Pandas) (z : ℂ) : ∃ fs₁ fs₂, save T [] "a.toml" exStatic = (fs₁, .ok ()) ∧
    save T fs₁ "a.toml" (exResponse z) = (fs₂, .ok ()) ∧
      load T sp pd 1 fs₂ .frequencyResponse "a.toml" = some (.error .typeError) := by
  refine ⟨_, _, rfl, rfl, ?_⟩
  exact C105_second_false (o₁ := exStatic) (o₂ := exResponse z) rfl (by decide)
    (show Cls.static ≠ Cls.frequencyResponse by decide) (by decide) (rfl : Dict.get? ([] : Files) "a.toml" = none) (k := "deformation") (a := .real [0, 1])
    (by simp [exStatic]) (by simp)
    (show "deformation" ∉ partsOf .frequencyResponse by decide) rfl rfl

/-- A time response comes back with its rotor, of two shaft elements, a disk, three bearings and a point mass. -/
example (sp : Scipy) (T : Texts) : ∃ r, PlainRotor sp RotorLemmas.exPandas 10 r ∧ ∃ fs',
    save T [] "a.toml" ⟨.timeResponse, [("rotor", .rotor r), ("t", .real [0, 1]), ("yout", .real [0, 2]),
        ("xout", .real [0, 2])]⟩ = (fs', .ok ()) ∧
      load T sp RotorLemmas.exPandas 10 fs' .timeResponse "a.toml" = some (.ok ⟨.timeResponse,
        [("rotor", .rotor { r with tag := "Rotor 0" }), ("t", .real [0, 1]), ("yout", .real [0, 2]),
          ("xout", .real [0, 2])]⟩) := by
  obtain ⟨r, h1, -⟩ := RotorLemmas.accepts RotorLemmas.exPandas_sorts (savedArgs_wf false) (fuel := 10) (by simp [savedArgs])
  have hm := savedArgs_made sp false
  have hp : PlainRotor sp RotorLemmas.exPandas 10 r := ⟨_, h1, fun e he => (hm.1 e he).1, hm.2 rfl⟩
  refine ⟨r, hp, ?_⟩
  refine C105_load_partial (o := ⟨.timeResponse, [("rotor", .rotor r), ("t", .real [0, 1]), ("yout", .real [0, 2]),
    ("xout", .real [0, 2])]⟩) rfl (by simp) (.inl rfl) ?_ ?_
  · intro k a h hk
    simp only [List.mem_cons, Prod.mk.injEq, List.not_mem_nil, or_false] at h
    rcases h with ⟨rfl, -⟩ | ⟨-, rfl⟩ | ⟨-, rfl⟩ | ⟨-, rfl⟩
    · exact absurd rfl hk
    all_goals exact .inl trivial
  · intro a h
    simp at h
    exact ⟨r, h, hp⟩

/-- A Campbell diagram. -/
example (T : Texts) (sp : Scipy) (pd : Pandas) (m : Arg) :=
  C105_campbell_partial (T := T) (sp := sp) (pd := pd) (fuel := 1) (fs := []) (path := "a.toml") (a1 := .real [0, 1])
    (a2 := .real [5, 6]) (a3 := .real [1]) (a4 := .real [1]) (a5 := .real [1]) (a6 := m) (a7 := .num 4)
    (s := "<bound method>") trivial trivial trivial trivial trivial trivial (.inl rfl)

end Ross.Props
