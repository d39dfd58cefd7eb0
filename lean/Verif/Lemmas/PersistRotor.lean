import Verif.Lemmas.Persist
import Verif.Lemmas.Convergence

/-! # Lemmas about saving and loading rotors -/

namespace Ross.PersistLemmas

open Ross.Persist Ross.Spec Ross.RotorLemmas Ross.StaticLemmas Ross.ConvLemmas Rotor

/-! ### Replacing bearings by bearings that the assembly cannot tell apart -/

/-- The attributes that the assembly reads. -/
structure Same (f : BrgEl → BrgEl) : Prop where
  n : ∀ b, (f b).n = b.n
  link : ∀ b, (f b).n_link = b.n_link
  tag : ∀ b, (f b).tag = b.tag
  isSeal : ∀ b, (f b).isSeal = b.isSeal
  map : ∀ b, (Elm.brg (f b)).dofMapping = (Elm.brg b).dofMapping

theorem same_halved : Same halved where
  n b := by rcases b with ⟨_ | _, b⟩ | b <;> rfl
  link b := by rcases b with ⟨_ | _, b⟩ | b <;> rfl
  tag b := by rcases b with ⟨_ | _, b⟩ | b <;> rfl
  isSeal b := by rcases b with ⟨_ | _, b⟩ | b <;> rfl
  map b := by rcases b with ⟨_ | _, b⟩ | b <;> rfl

/-- The replacement on elements. -/
def onElm (f : BrgEl → BrgEl) : Elm → Elm
  | .brg b => .brg (f b)
  | e => e

theorem onElm_halved (e : Elm) : onElm halved e = reread e := by cases e <;> rfl

variable {f : BrgEl → BrgEl}

theorem onElm_tag (hf : Same f) (e : Elm) : (onElm f e).tag = e.tag := by
  cases e <;> simp [onElm, Elm.tag, hf.tag]

theorem place_onElm (hf : Same f) (nd nl : ℕ) (e : Elm) :
    place nd nl (onElm f e) = (place nd nl e).map fun x => (onElm f x.1, x.2) := by
  cases e with
  | brg b =>
    simp [onElm, place, Elm.n, Elm.n_link, hf.n, hf.link, hf.map, Except.map]
  | shaft e => unfold place onElm; cases (Elm.shaft e).n <;> rfl
  | disk e => rfl
  | pm e => unfold place onElm; cases (Elm.pm e).n <;> rfl

theorem rows_same (hf : Same f) (l : List BrgEl) : brgRows (l.map f) = brgRows l := by
  simp [brgRows, hf.tag, hf.n, hf.link, Function.comp_def]

theorem concat_same (hf : Same f) (sh : List ShaftEl) (pos : List (ℝ × ℝ)) (dk : List DiskEl)
    (br : List BrgEl) (pm : List PmEl) :
    concatRows sh pos dk (br.map f) pm = concatRows sh pos dk br pm := by
  unfold concatRows
  rw [List.filter_map, List.filter_map, rows_same hf, rows_same hf]
  congr 3
  · congr 2
    funext b
    simp [hf.isSeal]
  · congr 1
    funext b
    simp [hf.isSeal]

theorem check_same (hf : Same f) (sh : List ShaftEl) (dk : List DiskEl) (br : List BrgEl) :
    checkNumberDof sh dk (br.map f) = checkNumberDof sh dk br := by
  unfold checkNumberDof
  cases sh with
  | nil => rfl
  | cons e t =>
    dsimp only
    rw [List.any_map]
    have : ((fun b => decide (nMap (.brg b) ≠ nMap (.shaft e) / 2 / 2)) ∘ f) =
        fun b => decide (nMap (.brg b) ≠ nMap (.shaft e) / 2 / 2) := by
      funext b
      simp only [Function.comp_apply, nMap, hf.map]
      congr
    rw [this]

theorem outside_same (hf : Same f) (sh : List ShaftEl) (dk : List DiskEl) (br : List BrgEl)
    (pm : List PmEl) : outside sh dk (br.map f) pm = outside sh dk br pm := by
  unfold outside
  simp only [List.map_map]
  have : (BrgEl.n ∘ f) = BrgEl.n := by funext b; exact hf.n b
  rw [this]

theorem elements_onElm (p : Parts) :
    (⟨p.sh, p.sh, p.dk, p.br.map f, p.pm⟩ : Parts).elements = p.elements.map (onElm f) := by
  simp [Parts.elements, onElm, Function.comp_def]

theorem build_transfer (hf : Same f) {pd : Pandas} {a a' : RotorArgs} {r : Rotor}
    (h : build pd a = .ok r)
    (hp : parts a' = ⟨(parts a).sh, (parts a).sh, (parts a).dk, (parts a).br.map f, (parts a).pm⟩)
    (h1 : a'.min_w = a.min_w) (h2 : a'.max_w = a.max_w) (h3 : a'.rated_w = a.rated_w) :
    build pd a' = .ok { r with
      bearings := r.bearings.map f, placed := r.placed.map fun x => (onElm f x.1, x.2)
      tag := a'.tag.getD "Rotor 0" } := by
  unfold build at h ⊢
  dsimp only at h ⊢
  by_cases g1 : ¬ ((parts a).elements.map Elm.tag).Nodup
  · rw [if_pos g1] at h; cases h
  rw [if_neg g1] at h
  obtain ⟨nd, g2, g3⟩ := BearingLemmas.bind_ok.1 h
  unfold buildFrom at g3
  dsimp only at g3
  by_cases g4 : outside (parts a).sh (parts a).dk (parts a).br (parts a).pm = true
  · rw [if_pos g4] at g3; cases g3
  rw [if_neg g4] at g3
  obtain ⟨dkpos, g5, g6⟩ := BearingLemmas.bind_ok.1 g3
  obtain ⟨pl, g7, g8⟩ := BearingLemmas.bind_ok.1 g6
  have g9 := Except.ok.inj g8
  subst g9
  have htags : ((parts a).elements.map (onElm f)).map Elm.tag = (parts a).elements.map Elm.tag := by
    rw [List.map_map]
    refine List.map_congr_left fun e _ => onElm_tag hf e
  have hmem : maxOr0 ((parts a).sh.map nodeOf) = maxOr0 ((parts a).sh₀.map nodeOf) :=
    maxOr0_perm ((parts_sh_perm a).map _)
  have hpl : ((parts a).elements.map (onElm f)).mapM (place nd (lastNode (parts a).sh)) =
      .ok (pl.map fun x => (onElm f x.1, x.2)) := by
    rw [mapM_ok_iff] at g7 ⊢
    rw [List.map_map, List.map_map]
    have : (place nd (lastNode (parts a).sh) ∘ onElm f) =
        (fun x : Res (Elm × Dict DofKey ℕ) => x.map fun y => (onElm f y.1, y.2)) ∘
          place nd (lastNode (parts a).sh) := by
      funext e
      exact place_onElm hf _ _ e
    rw [this, ← List.map_map, g7, List.map_map]
    rfl
  rw [hp, elements_onElm, htags, if_neg g1]
  refine BearingLemmas.bind_ok.2 ⟨nd, by rw [check_same hf]; exact g2, ?_⟩
  unfold buildFrom
  dsimp only
  rw [outside_same hf, if_neg g4, elements_onElm, concat_same hf]
  refine BearingLemmas.bind_ok.2 ⟨dkpos, g5, BearingLemmas.bind_ok.2 ⟨_, hpl, ?_⟩⟩
  simp only [pure, Except.pure, h1, h2, h3, ndofOf, hmem]

theorem bearingPos_same (hf : Same f) (rows : List Row) (b : BrgEl) :
    bearingPos rows (f b) = bearingPos rows b := by
  unfold bearingPos
  rw [hf.n, hf.tag]

theorem cycle_same (hf : Same f) (bs : List BrgEl) : ∀ (fuel : ℕ) (todo : List BrgEl)
    (rows : List Row) (pending : List (Option String)),
    cycleLoop (bs.map f) fuel (todo.map f) rows pending = cycleLoop bs fuel todo rows pending := by
  intro fuel
  induction fuel with
  | zero => intros; rfl
  | succ k ih =>
    intro todo rows pending
    cases todo with
    | nil =>
      cases bs with
      | nil => rfl
      | cons b bs => exact ih (b :: bs) rows pending
    | cons b rest =>
      simp only [List.map_cons, cycleLoop, hf.tag, bearingPos_same hf]
      split_ifs
      · rfl
      · cases bearingPos rows b with
        | error e => rfl
        | ok z => exact ih _ _ _
      · exact ih _ _ _

theorem init_transfer (hf : Same f) {pd : Pandas} {fuel : ℕ} {a a' : RotorArgs} {r : Rotor}
    (h : init pd fuel a = some (.ok r))
    (hp : parts a' = ⟨(parts a).sh, (parts a).sh, (parts a).dk, (parts a).br.map f, (parts a).pm⟩)
    (h1 : a'.min_w = a.min_w) (h2 : a'.max_w = a.max_w) (h3 : a'.rated_w = a.rated_w) :
    init pd fuel a' = some (.ok { r with
      bearings := r.bearings.map f, placed := r.placed.map fun x => (onElm f x.1, x.2)
      tag := a'.tag.getD "Rotor 0" }) := by
  obtain ⟨r₀, rows, g1, g2, g3⟩ := init_ok_build h
  have g4 := build_transfer hf g1 hp h1 h2 h3
  unfold init
  rw [g4]
  dsimp only
  have ht : (r₀.bearings.map f).map BrgEl.tag = r₀.bearings.map BrgEl.tag := by
    rw [List.map_map]
    exact List.map_congr_left fun b _ => hf.tag b
  rw [ht, cycle_same hf, g2]
  dsimp only
  unfold finish at g3 ⊢
  dsimp only at g3 ⊢
  obtain ⟨u, g5, g6⟩ := BearingLemmas.bind_ok.1 g3
  obtain ⟨df, g7, g8⟩ := BearingLemmas.bind_ok.1 g6
  have g9 := Except.ok.inj g8
  subst g9
  congr 1
  exact BearingLemmas.bind_ok.2 ⟨u, g5, BearingLemmas.bind_ok.2 ⟨df, g7, rfl⟩⟩

/-! ### Numbering, tagging and sorting once more -/

theorem flatten_els (l : List ShaftEl) : Nest.flattenAll (l.map Nest.el) = l := by
  induction l with
  | nil => rfl
  | cons e t ih => simp [Nest.flattenAll, Nest.flatten, ih]

theorem pm_setTag_self (p : PmEl) : p.setTag p.tag = p := by cases p <;> rfl

theorem parts_again (hf : Same f) {pd : Pandas} {fuel : ℕ} {a a' : RotorArgs} {r : Rotor}
    (h : init pd fuel a = some (.ok r)) (h1 : a'.shaft = r.shaft.map Nest.el)
    (h2 : a'.disks = r.disks) (h3 : a'.bearings = r.bearings.map f) (h4 : a'.pms = r.pms) :
    parts a' = ⟨(parts a).sh, (parts a).sh, (parts a).dk, (parts a).br.map f, (parts a).pm⟩ := by
  have hb := init_ok h
  have hsome := (Props.C21_tags h).2.2.1
  have e1 : numberShaft (Nest.flattenAll a'.shaft) = r.shaft := by
    rw [h1, flatten_els]
    refine mapIdx_self _ _ fun i e he => ?_
    obtain ⟨g1, g2⟩ := shaft_given h he
    rw [defTag_some _ _ g2, g1]
    obtain ⟨six, s⟩ := e
    dsimp only at g1 ⊢
    rw [Option.getD_some, ← g1]
  have e2 : sortShaft r.shaft = r.shaft := by
    apply List.mergeSort_of_pairwise
    have := parts_sh_sorted a
    rw [← hb.shaft] at this
    simpa using this
  have e3 : tagDisks a'.disks = r.disks := by
    rw [h2]
    refine mapIdx_self _ _ fun i e he => ?_
    rw [defTag_some _ _ (disk_tag_some h he)]
  have e4 : tagBearings a'.bearings = r.bearings.map f := by
    rw [h3]
    refine mapIdx_self _ _ fun i e he => ?_
    obtain ⟨b, hb', rfl⟩ := List.mem_map.1 he
    rw [defTag_some _ _ (by rw [hf.tag]; exact brg_tag_some h hb'), setTag_self]
  have e5 : sortBearings (r.bearings.map f) = r.bearings.map f := by
    apply List.mergeSort_of_pairwise
    rw [List.pairwise_map]
    have hs : r.bearings.Pairwise fun b c => b.n ≤ c.n := by
      rw [hb.bearings]
      have := List.pairwise_mergeSort (le := fun a b : BrgEl => decide (a.n ≤ b.n))
        (fun a b c h1 h2 => by simp at *; omega) (fun a b => by simp; omega) (tagBearings a.bearings)
      simpa [parts, sortBearings] using this
    refine hs.imp fun {b c} hbc => ?_
    rw [hf.n, hf.n, decide_eq_true_eq]
    exact hbc
  have e6 : tagPms a'.pms = r.pms := by
    rw [h4]
    refine mapIdx_self _ _ fun i e he => ?_
    have hp : e.tag.isSome :=
      hsome (.pm e) ((mem_elements hb _).2 (.inr (.inr (.inr ⟨e, he, rfl⟩))))
    rw [defTag_some _ _ hp, pm_setTag_self]
  rw [← hb.shaft, ← hb.disks, ← hb.bearings, ← hb.pms]
  unfold parts
  dsimp only
  rw [e1, e2, e3, e4, e5, e6]

/-! ### Elements stay elements that a constructor has returned -/

theorem made_shaft {s : ShaftElement} (h : MadeShaft s) (n : Option ℕ) (tag : Option String) :
    MadeShaft { s with n := n, tag := tag } := by
  obtain ⟨L, idl, odl, idr, odr, mat, m, af, tq, sh, ro, gy, me, tg, al, be, hm, hi⟩ := h
  obtain ⟨e1, -, e3⟩ := shaft_init_inv hi n tag
  cases e1
  exact ⟨_, _, _, _, _, _, _, _, _, _, _, _, _, _, _, _, hm, e3⟩

theorem made_brg {sp : Scipy} {b : BrgEl} (h : Constructed sp (.brg b)) (t : Option String) :
    Constructed sp (.brg (b.setTag t)) := by
  rcases b with ⟨_ | _, b⟩ | b
  · obtain ⟨a, ha⟩ := h
    exact ⟨_, brg_again ha t b.scale_factor⟩
  · obtain ⟨a, ha⟩ := h
    refine ⟨{ argsOf b with tag := t, scale_factor := 2 * b.scale_factor }, ?_⟩
    have := brg_again ha t b.scale_factor
    unfold sealInit
    dsimp only
    rw [mul_div_cancel_left₀ _ (two_ne_zero)]
    exact this
  · obtain ⟨a, kzz, czz, mzz, ha⟩ := h
    unfold BearingElement6DoF.init at ha
    simp only [BearingLemmas.bind_ok] at ha
    obtain ⟨b₀, h0, x1, h1, x2, h2, x3, h3, h4⟩ := ha
    simp only [pure, Except.pure, Except.ok.injEq] at h4
    subst h4
    have hf : b₀.frequency = a.frequency := (BearingLemmas.init_ok h0).2.2.1
    rw [← hf] at h1 h2 h3
    refine ⟨{ argsOf b₀ with tag := t }, .list x1.values, .list x2.values, .list x3.values, ?_⟩
    · unfold BearingElement6DoF.init
      simp only [BearingLemmas.bind_ok]
      exact ⟨_, brg_again h0 t b₀.scale_factor, x1, process_again h1, x2, process_again h2, x3,
        process_again h3, rfl⟩

theorem made_pm {sp : Scipy} {p : PmEl} (h : Constructed sp (.pm p)) (hs : Savable (.pm p))
    (t : Option String) : Constructed sp (.pm (p.setTag t)) ∧ Savable (.pm (p.setTag t)) := by
  rcases p with p | p
  · obtain ⟨n, m, mx, my, tag, color, hp⟩ := h
    refine ⟨⟨p.n, p.m, some p.mx, some p.my, t, p.color, ?_⟩, trivial⟩
    simp [PointMass.init, pyFloat, bind, Except.bind, pure, Except.pure]
  · cases hs

/-- The elements of a rotor have been made by constructors if those that it was built from have. -/
theorem made_elements {sp : Scipy} {pd : Pandas} {fuel : ℕ} {a : RotorArgs} {r : Rotor}
    (h : init pd fuel a = some (.ok r)) (hm : ∀ e ∈ argElements a, Constructed sp e)
    (hs : ∀ e ∈ argElements a, Savable e) :
    ∀ e ∈ r.elements, Constructed sp e ∧ Savable e := by
  have hb := init_ok h
  intro e he
  rw [mem_elements hb] at he
  simp only [argElements, List.mem_append, List.mem_map] at hm hs
  rcases he with ⟨s, hs', rfl⟩ | ⟨d, hd, rfl⟩ | ⟨b, hb', rfl⟩ | ⟨p, hp, rfl⟩
  · rw [hb.shaft] at hs'
    have := (parts_sh_perm a).mem_iff.1 hs'
    simp only [parts, numberShaft, List.mem_mapIdx] at this
    obtain ⟨i, hi, rfl⟩ := this
    exact ⟨made_shaft (hm _ (.inl (.inl (.inl ⟨_, List.getElem_mem hi, rfl⟩)))) _ _, trivial⟩
  · exact ⟨⟨_, _, _, _, _, _, _, rfl⟩, trivial⟩
  · rw [hb.bearings] at hb'
    have : b ∈ tagBearings a.bearings := (List.mergeSort_perm _ _).mem_iff.1 hb'
    simp only [tagBearings, List.mem_mapIdx] at this
    obtain ⟨i, hi, rfl⟩ := this
    refine ⟨made_brg (hm _ (.inl (.inr ⟨_, List.getElem_mem hi, rfl⟩))) _, trivial⟩
  · rw [hb.pms] at hp
    simp only [parts, tagPms, List.mem_mapIdx] at hp
    obtain ⟨i, hi, rfl⟩ := hp
    exact made_pm (hm _ (.inr ⟨_, List.getElem_mem hi, rfl⟩))
      (hs _ (.inr ⟨_, List.getElem_mem hi, rfl⟩)) _

/-! ### Files of rotors -/

/-- The data of an element that can be saved, written and read back. -/
theorem data_reread {sp : Scipy} {e : Elm} (h : Constructed sp e) (hp : Savable e) :
    ∃ t, data e = .ok t ∧ readData sp (className e) (Toml.table t) = .ok (reread e) := by
  rcases e with e | e | (⟨sl, b⟩ | b) | (p | p)
  · exact data_roundtrip h trivial
  · exact data_roundtrip h trivial
  · cases sl with
    | false => exact data_roundtrip h rfl
    | true =>
      obtain ⟨a, ha⟩ := h
      obtain ⟨t, h1, h2⟩ := seal_roundtrip ha
      refine ⟨t, h1, ?_⟩
      simp [readData, className, h2, Except.map, reread, halved]
  · exact data_roundtrip h trivial
  · exact data_roundtrip h trivial
  · cases hp

theorem reread_eq {e : Elm} (h : Faithful e) : reread e = e := by
  rcases e with e | e | (⟨sl, b⟩ | b) | (p | p)
  case brg.brg => cases h; rfl
  all_goals rfl

theorem reread_onElm (e : Elm) : reread e = onElm halved e := by cases e <;> rfl

theorem savable_of_faithful {e : Elm} (h : Faithful e) : Savable e := by
  rcases e with e | e | (⟨sl, b⟩ | b) | (p | p) <;> first | trivial | cases h

theorem class_no_underscore (e : Elm) : ∀ c ∈ (className e).toList, c ≠ '_' := by
  rcases e with ⟨b, s⟩ | ⟨b, d⟩ | (⟨b, x⟩ | x) | (p | p) <;> (try cases b) <;>
    simp only [className] <;> decide

theorem key_toList (e : Elm) :
    (key e).toList = (className e).toList ++ '_' :: (e.tag.getD "None").toList := by
  simp [key, String.toList_append]

theorem takeWhile_class {l m : List Char} (h : ∀ c ∈ l, c ≠ '_') :
    (l ++ '_' :: m).takeWhile (· ≠ '_') = l := by
  induction l with
  | nil => simp
  | cons a t ih =>
    simp only [List.mem_cons, forall_eq_or_imp] at h
    have := ih h.2
    simp only [List.cons_append]
    rw [List.takeWhile_cons_of_pos (by simpa using h.1), this]

theorem firstWord_key (e : Elm) : firstWord (key e) = className e := by
  unfold firstWord
  rw [key_toList, takeWhile_class (class_no_underscore e), String.ofList_toList]

theorem key_ne_parameters (e : Elm) : key e ≠ "parameters" := by
  intro h
  have h' := key_toList e
  rw [h] at h'
  have : '_' ∈ ("parameters" : String).toList := by rw [h']; simp
  revert this
  decide

theorem key_inj {e e' : Elm} (h : key e = key e') (h1 : e.tag.isSome) (h2 : e'.tag.isSome) :
    e.tag = e'.tag := by
  have hc : className e = className e' := by rw [← firstWord_key, h, firstWord_key]
  have hl : (key e).toList = (key e').toList := by rw [h]
  rw [key_toList, key_toList, hc] at hl
  have := List.append_cancel_left hl
  have := (List.cons.inj this).2
  have := String.toList_injective this
  obtain ⟨t, ht⟩ := Option.isSome_iff_exists.1 h1
  obtain ⟨t', ht'⟩ := Option.isSome_iff_exists.1 h2
  rw [ht, ht'] at this ⊢
  simpa using this

/-- The table of an element in a file. -/
def tableOf (e : Elm) : Table :=
  match data e with
  | .ok t => Toml.table t
  | .error _ => []

theorem set_new {f : TomlFile} {k : String} (h : k ∉ f.keys) (t : Table) :
    f.set k t = f ++ [(k, t)] := by
  induction f with
  | nil => rfl
  | cons a f ih =>
    obtain ⟨k', v⟩ := a
    simp only [Dict.keys, List.map_cons, List.mem_cons, not_or] at h
    have := ih h.2
    simp only [Dict.set, List.cons_append] at this ⊢
    rw [if_neg (Ne.symm h.1)]
    first
    | rw [this]
    | simp [this]

theorem save_new {sp : Scipy} {e : Elm} {f : TomlFile} (h : Constructed sp e) (hs : Savable e)
    (hf : Toml.dump f = f) (hk : key e ∉ f.keys) :
    save e (some f) = .ok (f ++ [(key e, tableOf e)]) := by
  obtain ⟨t, h1, -⟩ := data_reread h hs
  simp only [save, h1, bind, Except.bind, pure, Except.pure, Option.getD_some]
  rw [set_new hk, tableOf, h1]
  conv_rhs => rw [← hf]
  simp [Toml.dump]

theorem dump_tableOf {f : TomlFile} (hf : Toml.dump f = f) {sp : Scipy} {e : Elm}
    (h : Constructed sp e) (hs : Savable e) :
    Toml.dump (f ++ [(key e, tableOf e)]) = f ++ [(key e, tableOf e)] := by
  obtain ⟨t, h1, -⟩ := data_reread h hs
  conv_rhs => rw [← hf]
  simp [Toml.dump, tableOf, h1, table_table]

theorem save_all {sp : Scipy} : ∀ (l : List Elm) (f : TomlFile),
    (∀ e ∈ l, Constructed sp e ∧ Savable e) → Toml.dump f = f →
    (f.keys ++ l.map key).Nodup →
    l.foldlM (fun f e => save e (some f)) f = .ok (f ++ l.map fun e => (key e, tableOf e))
  | [], f, _, _, _ => by simp [pure, Except.pure]
  | e :: l, f, hm, hf, hk => by
    have he := hm e (by simp)
    have hnk : key e ∉ f.keys := by
      intro hc
      simp only [List.map_cons] at hk
      exact (List.nodup_append.1 hk).2.2 _ hc _ (by simp) rfl
    rw [List.foldlM_cons, save_new he.1 he.2 hf hnk]
    simp only [bind, Except.bind]
    have := save_all l (f ++ [(key e, tableOf e)]) (fun x hx => hm x (by simp [hx]))
      (dump_tableOf hf he.1 he.2) (by simpa [Dict.keys, List.append_assoc] using hk)
    rw [this]
    simp

theorem keys_nodup {pd : Pandas} {fuel : ℕ} {a : RotorArgs} {r : Rotor}
    (h : init pd fuel a = some (.ok r)) : (r.elements.map key).Nodup := by
  obtain ⟨hp, hn, hs, hi⟩ := Props.C21_tags h
  have ht : (r.elements.map Elm.tag).Nodup :=
    hp.nodup_iff.2 (hn.map (Option.some_injective _))
  refine (List.nodup_map_iff_inj_on (List.Nodup.of_map _ ht)).2 fun e he e' he' hk => ?_
  exact hi e he e' he' (key_inj hk (hs e he) (hs e' he'))

theorem saveRotor_eq {sp : Scipy} {pd : Pandas} {fuel : ℕ} {a : RotorArgs} {r : Rotor}
    (h : init pd fuel a = some (.ok r)) (hm : ∀ e ∈ r.elements, Constructed sp e ∧ Savable e) :
    saveRotor r = .ok (("parameters", Toml.table (parameters r)) ::
      r.elements.map fun e => (key e, tableOf e)) := by
  unfold saveRotor
  rw [save_all r.elements _ hm (dump_dump _)]
  · rfl
  · simp only [Toml.dump, Dict.keys, List.map_cons, List.map_nil, List.cons_append,
      List.nil_append, List.nodup_cons]
    refine ⟨fun hc => ?_, keys_nodup h⟩
    obtain ⟨e, -, he⟩ := List.mem_map.1 hc
    exact key_ne_parameters e he

theorem params_get (r : Rotor) :
    (Toml.table (parameters r)).get? "min_w" = r.min_w.map Val.num ∧
    (Toml.table (parameters r)).get? "max_w" = r.max_w.map Val.num ∧
    (Toml.table (parameters r)).get? "rated_w" = r.rated_w.map Val.num ∧
    (Toml.table (parameters r)).get? "tag" = none := by
  have hn : (parameters r).keys.Nodup := by
    change ["min_w", "max_w", "rated_w"].Nodup
    decide
  refine ⟨?_, ?_, ?_, ?_⟩ <;> rw [table_get hn]
  · cases h : r.min_w <;> simp [parameters, Dict.get?, wr, Val.isNull, Val.ofNum?, Toml.value, h]
  · cases h : r.max_w <;> simp [parameters, Dict.get?, wr, Val.isNull, Val.ofNum?, Toml.value, h]
  · cases h : r.rated_w <;> simp [parameters, Dict.get?, wr, Val.isNull, Val.ofNum?, Toml.value, h]
  · simp [parameters, Dict.get?, wr]

theorem params_keys (r : Rotor) :
    checkKeys ["min_w", "max_w", "rated_w", "tag"] (Toml.table (parameters r)) = .ok () := by
  refine checkKeys_ok fun k hk => ?_
  have h := table_mem hk
  have h' : k ∈ ["min_w", "max_w", "rated_w"] := h
  simp only [List.mem_cons, List.not_mem_nil, or_false] at h' ⊢
  tauto

theorem loadArgs_eq {sp : Scipy} {r : Rotor} (hm : ∀ e ∈ r.elements, Constructed sp e ∧ Savable e) :
    loadArgs sp (("parameters", Toml.table (parameters r)) ::
      r.elements.map fun e => (key e, tableOf e)) =
    .ok { shaft := ((r.elements.map reread).filterMap shaftOf).map Nest.el
          disks := (r.elements.map reread).filterMap diskOf
          bearings := (r.elements.map reread).filterMap brgOf
          pms := (r.elements.map reread).filterMap pmOf
          min_w := r.min_w, max_w := r.max_w, rated_w := r.rated_w, tag := none } := by
  have hfil : ((("parameters", Toml.table (parameters r)) ::
      r.elements.map fun e => (key e, tableOf e) : TomlFile).filter
        fun kv => kv.1 ≠ "parameters") = r.elements.map fun e => (key e, tableOf e) := by
    rw [List.filter_cons_of_neg (by simp), List.filter_eq_self]
    intro kv hkv
    obtain ⟨e, -, rfl⟩ := List.mem_map.1 hkv
    simpa using key_ne_parameters e
  have hmap : (r.elements.map fun e => (key e, tableOf e)).mapM (readEntry sp) =
      .ok (r.elements.map reread) := by
    rw [List.mapM_map]
    refine (mapM_ok_iff _ _ _).2 ?_
    rw [List.map_map]
    refine List.map_congr_left fun e he => ?_
    obtain ⟨t, h1, h2⟩ := data_reread (hm e he).1 (hm e he).2
    simp only [Function.comp_apply, readEntry, firstWord_key, tableOf, h1, h2]
  obtain ⟨g1, g2, g3, g4⟩ := params_get r
  have hget : Dict.get? (("parameters", Toml.table (parameters r)) ::
      r.elements.map fun e => (key e, tableOf e)) "parameters" =
      some (Toml.table (parameters r)) := by simp [Dict.get?]
  unfold loadArgs
  rw [hfil, hget, hmap]
  simp only [bind, Except.bind, params_keys, opt_num g1, opt_num g2, opt_num g3]
  simp [opt, g4, pure, Except.pure]

theorem filterMap_parts (f : BrgEl → BrgEl) (sh : List ShaftEl) (dk : List DiskEl)
    (br : List BrgEl) (pm : List PmEl) :
    let l := (sh.map Elm.shaft ++ dk.map Elm.disk ++ br.map Elm.brg ++ pm.map Elm.pm).map (onElm f)
    l.filterMap shaftOf = sh ∧ l.filterMap diskOf = dk ∧ l.filterMap brgOf = br.map f ∧
      l.filterMap pmOf = pm := by
  intro l
  have e1 : l = sh.map Elm.shaft ++ dk.map Elm.disk ++ (br.map f).map Elm.brg ++ pm.map Elm.pm := by
    simp only [l, List.map_append, List.map_map]
    rfl
  rw [e1]
  refine ⟨?_, ?_, ?_, ?_⟩ <;>
    simp only [List.filterMap_append, List.filterMap_map]
  · have h1 : (shaftOf ∘ Elm.shaft) = some := rfl
    have h2 : (shaftOf ∘ Elm.disk) = fun _ => none := rfl
    have h3 : (shaftOf ∘ Elm.brg) = fun _ => none := rfl
    have h4 : (shaftOf ∘ Elm.pm) = fun _ => none := rfl
    simp [h1, h2, h3, h4, Function.comp_def, shaftOf]
  · simp [Function.comp_def, diskOf]
  · simp [Function.comp_def, brgOf]
  · simp [Function.comp_def, pmOf]

theorem limits {pd : Pandas} {fuel : ℕ} {a : RotorArgs} {r : Rotor}
    (h : init pd fuel a = some (.ok r)) :
    r.min_w = a.min_w ∧ r.max_w = a.max_w ∧ r.rated_w = a.rated_w ∧
      r.tag = a.tag.getD "Rotor 0" := by
  obtain ⟨r₀, rows, g1, g2, g3⟩ := init_ok_build h
  obtain ⟨df, rfl⟩ := finish_ok g3
  unfold build at g1
  dsimp only at g1
  by_cases g4 : ¬ ((parts a).elements.map Elm.tag).Nodup
  · rw [if_pos g4] at g1; cases g1
  rw [if_neg g4] at g1
  obtain ⟨nd, g2, g3⟩ := BearingLemmas.bind_ok.1 g1
  unfold buildFrom at g3
  dsimp only at g3
  by_cases g4 : outside (parts a).sh (parts a).dk (parts a).br (parts a).pm = true
  · rw [if_pos g4] at g3; cases g3
  rw [if_neg g4] at g3
  obtain ⟨dkpos, g5, g6⟩ := BearingLemmas.bind_ok.1 g3
  obtain ⟨pl, g7, g8⟩ := BearingLemmas.bind_ok.1 g6
  have g9 := Except.ok.inj g8
  subst g9
  exact ⟨rfl, rfl, rfl, rfl⟩

/-- A rotor saved and loaded: seals have half their scale factor, and the tag is the default. -/
theorem load_save {sp : Scipy} {pd : Pandas} {fuel : ℕ} {a : RotorArgs} {r : Rotor}
    (h : init pd fuel a = some (.ok r)) (hm : ∀ e ∈ r.elements, Constructed sp e ∧ Savable e) :
    ∃ file, saveRotor r = .ok file ∧ loadRotor sp pd fuel file = some (.ok { r with
      bearings := r.bearings.map halved, placed := r.placed.map fun x => (reread x.1, x.2)
      tag := "Rotor 0" }) := by
  refine ⟨_, saveRotor_eq h hm, ?_⟩
  have hb := init_ok h
  unfold loadRotor
  rw [loadArgs_eq hm]
  dsimp only
  have hr : reread = onElm halved := funext reread_onElm
  have hel := elements_eq' hb
  rw [hel, hr]
  obtain ⟨f1, f2, f3, f4⟩ := filterMap_parts halved r.shaft r.disks r.bearings r.pms
  rw [f1, f2, f3, f4]
  exact init_transfer same_halved h (parts_again same_halved h rfl rfl rfl rfl) (limits h).1 (limits h).2.1
    (limits h).2.2.1

end Ross.PersistLemmas
