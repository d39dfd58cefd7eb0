import Verif.Lemmas.PersistRotor
import Verif.Lemmas.ExRotor
import Verif.Lemmas.Shape
import Verif.Props.Reduction
import Verif.Model.RossOnly

/-! # C104: rotors of plain elements -/

namespace Ross.Props

open RossOnly Persist PersistLemmas Spec Rotor RotorLemmas BearingLemmas

/-- A bearing or seal with two directions that the constructor has returned when no mass was
given. -/
def NoMass (sp : Scipy) : BrgEl → Prop
  | .brg _ b => ∃ a : BearingArgs, BearingElement.init sp a = .ok b ∧ a.mxx = none ∧ a.myy = none ∧
      a.mxy = .scalar 0 ∧ a.myx = .scalar 0
  | .brg6 _ => False

/-- With the default size on drawings. -/
noncomputable def rescaled : BrgEl → BrgEl
  | .brg true b => .brg true { b with scale_factor := 1 / 2 }
  | .brg false b => .brg false { b with scale_factor := 1 }
  | .brg6 b => .brg6 b

theorem same_rescaled : Same rescaled where
  n b := by rcases b with ⟨_ | _, b⟩ | b <;> rfl
  link b := by rcases b with ⟨_ | _, b⟩ | b <;> rfl
  tag b := by rcases b with ⟨_ | _, b⟩ | b <;> rfl
  isSeal b := by rcases b with ⟨_ | _, b⟩ | b <;> rfl
  map b := by rcases b with ⟨_ | _, b⟩ | b <;> rfl

theorem args_init {sp : Scipy} {a : BearingArgs} {b : BearingElement}
    (h : BearingElement.init sp a = .ok b) {z : Coeff}
    (hz : Coeff.process sp b.frequency (.scalar 0) = .ok z) (hl : z.values.length = reqLen b.frequency)
    (sf : ℝ) :
    BearingElement.init sp { args b with scale_factor := sf } =
      .ok { b with mxx := z, myy := z, mxy := z, myx := z, scale_factor := sf } := by
  obtain ⟨-, -, hf, -, -, -, hc⟩ := init_ok h
  simp only [List.mem_cons, List.not_mem_nil, or_false, forall_eq_or_imp, forall_eq] at hc
  obtain ⟨⟨h1, l1⟩, ⟨h2, l2⟩, ⟨h3, l3⟩, ⟨h4, l4⟩, ⟨h5, l5⟩, ⟨h6, l6⟩, ⟨h7, l7⟩, ⟨h8, l8⟩, -⟩ := hc
  rw [← hf] at h1 h2 h3 h4 h5 h6 h7 h8 l1 l2 l3 l4 l5 l6 l7 l8
  unfold BearingElement.init
  simp only [bind_ok]
  refine ⟨b.kxx, process_again h1, b.kyy, process_again h2, b.kxy, process_again h3, b.kyx,
    process_again h4, b.cxx, process_again h5, b.cyy, process_again h6, b.cxy, process_again h7,
    b.cyx, process_again h8, z, hz, z, hz, z, hz, z, hz, ?_⟩
  rw [if_pos]
  · rfl
  · generalize he : ({ args b with scale_factor := sf } : BearingArgs).frequency = fr
    have he' : b.frequency = fr := he
    rw [he'] at l1 l2 l3 l4 l5 l6 l7 l8 hl
    cases fr <;> simpa [reqLen] using ⟨l1, l2, l3, l4, l5, l6, l7, l8, hl⟩

theorem bearing_rescaled {sp : Scipy} {b : BrgEl} (h : NoMass sp b) :
    bearing sp b = .ok (rescaled b) := by
  rcases b with ⟨sl, b⟩ | b
  · obtain ⟨a, ha, m1, m2, m3, m4⟩ := h
    obtain ⟨-, -, hf, -, -, -, hc⟩ := init_ok ha
    simp only [List.mem_cons, List.not_mem_nil, or_false, forall_eq_or_imp, forall_eq] at hc
    obtain ⟨-, -, -, -, -, -, -, -, ⟨h9, l9⟩, ⟨h10, -⟩, ⟨h11, -⟩, ⟨h12, -⟩⟩ := hc
    simp only [defaults, m1, m2, m3, m4] at h9 h10 h11 h12
    rw [← hf] at h9 h10 h11 h12 l9
    have e10 : b.myy = b.mxx := Except.ok.inj (h10.symm.trans h9)
    have e11 : b.mxy = b.mxx := Except.ok.inj (h11.symm.trans h9)
    have e12 : b.myx = b.mxx := Except.ok.inj (h12.symm.trans h9)
    have key := fun sf => args_init ha h9 l9 sf
    have e : ∀ sf : ℝ, ({ b with mxx := b.mxx, myy := b.mxx, mxy := b.mxx, myx := b.mxx, scale_factor := sf } :
        BearingElement) = { b with scale_factor := sf } := by
      intro sf
      obtain ⟨n, n_link, frequency, kxx, kyy, kxy, kyx, cxx, cyy, cxy, cyx, mxx, myy, mxy, myx, tag, sf', color⟩ := b
      dsimp only at e10 e11 e12 ⊢
      rw [e10, e11, e12]
    cases sl
    · show (BearingElement.init sp { args b with scale_factor := 1 }).map _ = _
      rw [key 1, e]
      rfl
    · show (BearingElement.init sp { args b with scale_factor := 1 / 2 }).map _ = _
      rw [key (1 / 2), e]
      rfl
  · exact h.elim

theorem noMass_setTag {sp : Scipy} {b : BrgEl} (h : NoMass sp b) (t : Option String) :
    NoMass sp (b.setTag t) := by
  rcases b with ⟨sl, b⟩ | b
  · obtain ⟨a, ha, m⟩ := h
    refine ⟨{ a with tag := t }, ?_, m⟩
    unfold BearingElement.init at ha ⊢
    simp only [bind_ok] at ha ⊢
    obtain ⟨x1, h1, x2, h2, x3, h3, x4, h4, x5, h5, x6, h6, x7, h7, x8, h8, x9, h9, x10, h10, x11,
      h11, x12, h12, h⟩ := ha
    refine ⟨x1, h1, x2, h2, x3, h3, x4, h4, x5, h5, x6, h6, x7, h7, x8, h8, x9, h9, x10, h10, x11,
      h11, x12, h12, ?_⟩
    split_ifs at h with hc
    · rw [if_pos hc, ← Except.ok.inj h]
      rfl
  · exact h.elim

variable {sp : Scipy} {pd : Pandas} {fuel : ℕ} {a : RotorArgs} {r : Rotor}

theorem assemble_map {N : ℕ} {f : Elm → Res LMat} {g : Elm → Elm} (l : List (Elm × Dict DofKey ℕ))
    (h : ∀ e, f (g e) = f e) :
    assemble N f (l.map fun x => (g x.1, x.2)) = assemble N f l := by
  unfold assemble
  rw [List.foldlM_map]
  simp only [h]

/-- The rotor with the default sizes of the bearings on drawings. -/
noncomputable def copyOf (r : Rotor) : Rotor :=
  { r with bearings := r.bearings.map rescaled
           placed := r.placed.map fun x => (onElm rescaled x.1, x.2) }

/-- **C104** The sizes on drawings are in none of the matrices. -/
theorem C104_matrices (r : Rotor) (ω : ℝ) (sync : Bool) (ignore : List (Option String)) :
    (copyOf r).M (some ω) sync = r.M (some ω) sync ∧ (copyOf r).K ω ignore = r.K ω ignore ∧
      (copyOf r).C ω ignore = r.C ω ignore ∧ (copyOf r).G = r.G := by
  have hk : (copyOf r).keep ignore = (r.keep ignore).map fun x => (onElm rescaled x.1, x.2) := by
    unfold keep copyOf
    rw [List.filter_map]
    congr 1
    refine List.filter_congr fun x _ => ?_
    simp only [Function.comp, onElm_tag same_rescaled]
  refine ⟨?_, ?_, ?_, ?_⟩
  · exact assemble_map _ fun e => by rcases e with _ | _ | ⟨_ | _, b⟩ | b <;> rfl
  · unfold K
    rw [hk]
    exact assemble_map _ fun e => by rcases e with _ | _ | ⟨⟨_ | _, b⟩ | b⟩ | b <;> rfl
  · unfold C
    rw [hk]
    exact assemble_map _ fun e => by rcases e with _ | _ | ⟨⟨_ | _, b⟩ | b⟩ | b <;> rfl
  · exact assemble_map _ fun e => by rcases e with _ | _ | ⟨⟨_ | _, b⟩ | b⟩ | b <;> rfl

theorem mem_bearings (h : init pd fuel a = some (.ok r)) {b : BrgEl} (hb : b ∈ r.bearings) :
    ∃ c ∈ a.bearings, ∃ t, b = c.setTag t := by
  rw [(RotorLemmas.init_ok h).bearings, (parts_br_perm a).mem_iff] at hb
  simp only [tagBearings, List.mem_mapIdx] at hb
  obtain ⟨i, hi, rfl⟩ := hb
  exact ⟨_, List.getElem_mem hi, _, rfl⟩

/-- **C104** A rotor whose bearings and seals have two directions and were given no mass is copied: the copy
has the same shaft, disks, bearings, seals, point masses, limits of speed and tag, and all the same derived data
but the sizes on drawings. -/
theorem C104_copy_partial (h : init pd fuel a = some (.ok r)) (hm : ∀ b ∈ a.bearings, NoMass sp b) :
    toRossOnly sp pd fuel r = some (.ok (copyOf r)) := by
  have h1 : r.bearings.mapM (bearing sp) = .ok (r.bearings.map rescaled) := by
    rw [mapM_ok_iff, List.map_map]
    refine List.map_congr_left fun b hb => ?_
    obtain ⟨c, hc, t, rfl⟩ := mem_bearings h hb
    exact bearing_rescaled (noMass_setTag (hm c hc) t)
  unfold toRossOnly
  rw [h1]
  dsimp only
  have h2 := init_transfer same_rescaled h
    (parts_again (a' := rotorArgs r (r.bearings.map rescaled)) same_rescaled h rfl rfl rfl rfl)
    (limits h).1 (limits h).2.1 (limits h).2.2.1
  rw [h2]
  rfl

/-- **C104 is false** of bearings with mass: the copy of a bearing without a table of speeds has no mass,
whatever the mass of the bearing is, and the same stiffness and damping. -/
theorem C104_mass_false {args : BearingArgs} {b : BearingElement} (h : BearingElement.init sp args = .ok b)
    (hf : args.frequency = none) (ω : ℝ) :
    ∃ b', bearing sp (.brg false b) = .ok (.brg false b') ∧ b'.M ω = .ok (linkMat b.n_link !![0, 0; 0, 0]) ∧
      b'.K ω = b.K ω ∧ b'.C ω = b.C ω := by
  have hf' : b.frequency = none := by rw [(BearingLemmas.init_ok h).2.2.1, hf]
  have hz : Coeff.process sp b.frequency (.scalar 0) = .ok ⟨[0], some fun x => 0 + (0 - 0) * x⟩ := by
    rw [hf']
    rfl
  have := args_init h hz (by rw [hf']; rfl) 1
  let z : Coeff := ⟨[0], some fun x => 0 + (0 - 0) * x⟩
  refine ⟨{ b with mxx := z, myy := z, mxy := z, myx := z, scale_factor := 1 }, by
    show (BearingElement.init sp { RossOnly.args b with scale_factor := 1 }).map _ = _
    rw [this]; rfl, ?_, rfl, rfl⟩
  simp [z, BearingElement.M, Coeff.eval, bind, Except.bind, pure, Except.pure]

theorem bearing_plain {b c : BrgEl} (h : bearing sp b = .ok c) : ∃ sl d, c = .brg sl d := by
  rcases b with ⟨sl, b⟩ | b
  · cases sl
    · unfold bearing at h
      dsimp only at h
      cases hx : BearingElement.init sp (args b) with
      | error e => rw [hx] at h; cases h
      | ok d => rw [hx] at h; exact ⟨false, d, (Except.ok.inj h).symm⟩
    · unfold bearing at h
      dsimp only at h
      cases hx : sealInit sp (args b) with
      | error e => rw [hx] at h; cases h
      | ok d => rw [hx] at h; exact ⟨true, d, (Except.ok.inj h).symm⟩
  · unfold bearing at h
    dsimp only at h
    cases hx : BearingElement.init sp (args b.base) with
    | error e => rw [hx] at h; cases h
    | ok d => rw [hx] at h; exact ⟨false, d, (Except.ok.inj h).symm⟩

/-- **C104 is false** of rotors with six degrees of freedom per node: a rotor with a bearing cannot be
copied. -/
theorem C104_six_false (h : init pd fuel a = some (.ok r)) (h6 : r.number_dof = 6) (hb : r.bearings ≠ [])
    (r' : Rotor) : toRossOnly sp pd fuel r ≠ some (.ok r') := by
  intro hc
  unfold toRossOnly at hc
  cases hx : r.bearings.mapM (bearing sp) with
  | error e => rw [hx] at hc; simp at hc
  | ok bs =>
    rw [hx] at hc
    dsimp only at hc
    have hr := RotorLemmas.init_ok h
    have hr' := RotorLemmas.init_ok hc
    obtain ⟨-, -, hs, -, -⟩ := check_ok hr.dof
    obtain ⟨hne, -, hs', -, hb'⟩ := check_ok hr'.dof
    have h6' : r'.number_dof = 6 := by
      obtain ⟨e, t, he⟩ := List.exists_cons_of_ne_nil hne
      have hmem : e ∈ r'.shaft := by rw [he]; exact List.mem_cons_self
      have h1 := hs' e hmem
      rw [hr'.shaft, (parts_sh_perm _).mem_iff] at hmem
      have h2 : ∃ e₀ ∈ r.shaft, e.six = e₀.six := by
        change e ∈ numberShaft (Nest.flattenAll (r.shaft.map Nest.el)) at hmem
        rw [flatten_els] at hmem
        simp only [numberShaft, List.mem_mapIdx] at hmem
        obtain ⟨i, hi, rfl⟩ := hmem
        exact ⟨_, List.getElem_mem hi, rfl⟩
      obtain ⟨e₀, g1, g2⟩ := h2
      rw [g2, hs e₀ g1, h6] at h1
      simpa using h1.symm
    have hlen : r'.bearings.length = r.bearings.length := by
      rw [hr'.bearings, (parts_br_perm _).length_eq]
      show (tagBearings bs).length = _
      rw [tagBearings, List.length_mapIdx, ← ShapeLemmas.mapM_length hx]
    have hne' : r'.bearings ≠ [] := by
      intro e
      rw [e] at hlen
      exact hb (List.eq_nil_of_length_eq_zero hlen.symm)
    obtain ⟨b, t, he⟩ := List.exists_cons_of_ne_nil hne'
    have hmem : b ∈ r'.bearings := by rw [he]; exact List.mem_cons_self
    obtain ⟨c, hc1, tg, rfl⟩ := mem_bearings hc hmem
    obtain ⟨i, hi, hci⟩ := List.mem_iff_getElem.1 (show c ∈ bs from hc1)
    have hg := ShapeLemmas.mapM_get hx i
    rw [List.getElem?_eq_getElem hi, hci] at hg
    have hi' : i < r.bearings.length := by rw [ShapeLemmas.mapM_length hx]; exact hi
    rw [List.getElem?_eq_getElem hi'] at hg
    obtain ⟨sl, d, rfl⟩ := bearing_plain (Option.some.inj hg)
    have := hb' _ hmem
    simp only [BrgEl.setTag] at this
    omega

/-- Non-vacuity of `C104_copy_partial`: a rotor with bearings, a linked bearing and a seal. -/
example (sp : Scipy) : ∃ r, init exPandas 10 exArgs = some (.ok r) ∧ ∀ b ∈ exArgs.bearings, NoMass sp b := by
  obtain ⟨r, h1, -⟩ := exRotor_exists
  refine ⟨r, h1, fun b hb => ?_⟩
  simp only [exArgs, List.mem_cons, List.not_mem_nil, or_false] at hb
  rcases hb with rfl | rfl | rfl <;> exact ⟨_, exBrg_init sp _ _ _ _, rfl, rfl, rfl, rfl⟩

/-- Non-vacuity of `C104_mass_false`: a bearing with a mass of 5. -/
example (sp : Scipy) : ∃ b, BearingElement.init sp
      { n := 0, kxx := .scalar 1e6, cxx := .scalar 100, mxx := some (.scalar 5) } = .ok b ∧
    b.M 0 = .ok (linkMat none !![5, 0; 0, 5]) := by
  refine ⟨_, rfl, ?_⟩
  simp [BearingElement.M, Coeff.eval, bind, Except.bind, pure, Except.pure, Coeff.process]

/-- Non-vacuity of `C104_six_false`. -/
example : ∃ r, init exPandas 10 sixLinked = some (.ok r) ∧ r.number_dof = 6 ∧ r.bearings ≠ [] := by
  obtain ⟨r, h1, h2, -⟩ := accepts exPandas_sorts sixLinked_wf (fuel := 10) (by simp [sixLinked])
  refine ⟨r, h1, h2, fun e => ?_⟩
  have := (parts_br_perm sixLinked).length_eq
  rw [← (RotorLemmas.init_ok h1).bearings, e] at this
  simp [tagBearings, sixLinked] at this

end Ross.Props
