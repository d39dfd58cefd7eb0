import Verif.Lemmas.Stochastic
import Verif.Lemmas.ListRes
import Verif.Lemmas.Shape
import Verif.Props.ShaftGeometry

/-! # Random elements (C67, C68, C71) -/

namespace Ross.Props

open Stochastic Persist Spec StochasticLemmas

/-! ### C67: the elements drawn from a random element are built from the samples -/

/-- C67 for shaft elements. -/
theorem C67_shaft {N : ℕ} (L idl odl : Sample N ℝ) (idr odr : Option (Sample N ℝ)) (material : Sample N Material)
    (arg : MatArg) (harg : arg.value = .ok material.mat) (n : Option ℕ) (axial_force torque : Sample N ℝ)
    (shear_effects rotary_inertia gyroscopic : Bool) (shear_method_calc : String) (is_random : List String)
    (hr : Declared is_random
      [("L", L.isRandom), ("idl", idl.isRandom), ("odl", odl.isRandom), ("idr", randomOpt idr),
        ("odr", randomOpt odr), ("material", material.isRandom), ("axial_force", axial_force.isRandom),
        ("torque", torque.isRandom)]
      [("L", L.isRandom), ("idl", idl.isRandom), ("odl", odl.isRandom), ("idr", (idr.getD idl).isRandom),
        ("odr", (odr.getD odl).isRandom), ("material", material.isRandom), ("axial_force", axial_force.isRandom),
        ("torque", torque.isRandom)]) :
    ∃ e, shaft L.num idl.num odl.num (numOpt idr) (numOpt odr) arg n axial_force.num torque.num shear_effects
        rotary_inertia gyroscopic shear_method_calc is_random = .ok e ∧
      shafts e = (List.finRange N).mapM fun i =>
        ShaftElement.init (L.draw i) (idl.draw i) (odl.draw i) (idr.map (·.draw i)) (odr.map (·.draw i))
          (some (material.draw i)) n (axial_force.draw i) (torque.draw i) shear_effects rotary_inertia gyroscopic
          shear_method_calc none 0 0 := by
  obtain ⟨hne, hmust, hmay⟩ := hr
  unfold shaft
  simp only [harg, default_numOpt]
  refine ⟨_, rfl, ?_⟩
  generalize hr' : (if (numOpt odr).isNone = true then alsoRandom "odl" "odr"
      (if (numOpt idr).isNone = true then alsoRandom "idl" "idr" is_random else is_random)
    else if (numOpt idr).isNone = true then alsoRandom "idl" "idr" is_random else is_random) = r'
  have hmem : ∀ k, k ∈ r' ↔ k ∈ is_random ∨ (idr = none ∧ k = "idr" ∧ "idl" ∈ is_random) ∨
      (odr = none ∧ k = "odr" ∧ "odl" ∈ is_random) := by
    intro k
    rw [← hr', mem_default, mem_default, mem_default]
    simp only [isNone_numOpt, Option.isNone_iff_eq_none]
    have : ("odl" : String) ≠ "idr" := by decide
    tauto
  have hall : ∀ k, k ∈ r' ↔ (k, true) ∈ [("L", L.isRandom), ("idl", idl.isRandom), ("odl", odl.isRandom),
      ("idr", (idr.getD idl).isRandom), ("odr", (odr.getD odl).isRandom), ("material", material.isRandom),
      ("axial_force", axial_force.isRandom), ("torque", torque.isRandom)] := by
    intro k
    rw [hmem]
    constructor
    · rintro (h | ⟨rfl, rfl, h⟩ | ⟨rfl, rfl, h⟩)
      · exact hmay k h
      · have := hmay _ h; simp at this ⊢; exact this
      · have := hmay _ h; simp at this ⊢; exact this
    · intro h
      simp only [List.mem_cons, Prod.mk.injEq, List.not_mem_nil, or_false] at h
      rcases h with ⟨rfl, h⟩ | ⟨rfl, h⟩ | ⟨rfl, h⟩ | ⟨rfl, h⟩ | ⟨rfl, h⟩ | ⟨rfl, h⟩ | ⟨rfl, h⟩ | ⟨rfl, h⟩
      · exact .inl (hmust _ (by simp [← h]))
      · exact .inl (hmust _ (by simp [← h]))
      · exact .inl (hmust _ (by simp [← h]))
      · rcases idr with _ | idr
        · exact .inr (.inl ⟨rfl, rfl, hmust _ (by simp [h])⟩)
        · exact .inl (hmust _ (by simp [h, randomOpt]))
      · rcases odr with _ | odr
        · exact .inr (.inr ⟨rfl, rfl, hmust _ (by simp [h])⟩)
        · exact .inl (hmust _ (by simp [h, randomOpt]))
      · exact .inl (hmust _ (by simp [← h]))
      · exact .inl (hmust _ (by simp [← h]))
      · exact .inl (hmust _ (by simp [← h]))
  have hne' : r' ≠ [] := by
    obtain ⟨k, hk⟩ := List.exists_mem_of_ne_nil _ hne
    exact List.ne_nil_of_mem ((hmem k).2 (.inl hk))
  refine iterate_ok shaftParams newShaft _ (fun i => [.num (L.draw i), .num (idl.draw i), .num (odl.draw i),
    .num ((idr.getD idl).draw i), .num ((odr.getD odl).draw i), .mat (material.draw i), .ofInt? n,
    .num (axial_force.draw i), .num (torque.draw i), .bool shear_effects, .bool rotary_inertia, .bool gyroscopic,
    .str shear_method_calc, .null]) _ hne' ?_ ?_ ?_ ?_
  · intro k hk
    have h := (hall k).1 hk
    simp only [List.mem_cons, Prod.mk.injEq, List.not_mem_nil, or_false] at h
    rcases h with ⟨rfl, h⟩ | ⟨rfl, h⟩ | ⟨rfl, h⟩ | ⟨rfl, h⟩ | ⟨rfl, h⟩ | ⟨rfl, h⟩ | ⟨rfl, h⟩ | ⟨rfl, h⟩
    case inr.inr.inr.inr.inr.inl => exact ⟨_, rfl, len_mat _ h.symm⟩
    all_goals exact ⟨_, rfl, len_num _ h.symm⟩
  · intro i
    simp only [List.mapM_cons, List.mapM_nil]
    rw [pick_num, pick_num, pick_num, pick_num, pick_num, pick_mat, pick_val, pick_num, pick_num, pick_val,
      pick_val, pick_val, pick_val, pick_val]
    · rfl
    all_goals simp [hall]
  · intro i; simp [shaftParams]
  · intro i
    have e1 : ((idr.getD idl).draw i) = (idr.map (·.draw i)).getD (idl.draw i) := by cases idr <;> rfl
    have e2 : ((odr.getD odl).draw i) = (odr.map (·.draw i)).getD (odl.draw i) := by cases odr <;> rfl
    rw [e1, e2]
    rcases n with _ | n <;> rfl

/-- C67 for materials; a material that is not accepted is not accepted for any sample. -/
theorem C67_material {N : ℕ} (hN : 0 < N) (name : String) (rho : Sample N ℝ) (E G_s Poisson : Option (Sample N ℝ))
    (color : String)
    (hr : (rho.isRandom || randomOpt E || randomOpt G_s || randomOpt Poisson) = true) :
    (material name rho.num (numOpt E) (numOpt G_s) (numOpt Poisson) color >>= materials) =
      (List.finRange N).mapM fun i =>
        Material.init name (rho.draw i) (E.map (·.draw i)) (G_s.map (·.draw i)) (Poisson.map (·.draw i)) color := by
  have hbad : ∀ f : Fin N → Res Material, (∀ i, f i = .error .valueError) →
      (List.finRange N).mapM f = .error .valueError := by
    intro f hf
    obtain ⟨M, rfl⟩ := Nat.exists_eq_succ_of_ne_zero hN.ne'
    rw [List.finRange_succ, List.mapM_cons, hf]; rfl
  have hgiven : ∀ i, Material.given (E.map (·.draw i)) (G_s.map (·.draw i)) (Poisson.map (·.draw i)) =
      ([numOpt E, numOpt G_s, numOpt Poisson].filter fun v => !v.isNone).length := by
    intro i
    rcases E with _ | E <;> rcases G_s with _ | G <;> rcases Poisson with _ | P <;>
      simp [Material.given, List.filter_cons, isNone_numOpt]
  unfold material
  by_cases h1 : ' ' ∈ name.toList
  · rw [if_pos h1, hbad _ fun i => by unfold Material.init; exact if_pos h1]; rfl
  rw [if_neg h1]
  by_cases h2 : ([numOpt E, numOpt G_s, numOpt Poisson].filter fun v => !v.isNone).length ≠ 2
  · rw [if_pos h2, hbad _ fun i => by
      unfold Material.init; rw [if_neg h1]; exact if_pos (by rw [hgiven]; exact h2)]; rfl
  rw [if_neg h2]
  have hall : ∀ k, k ∈ ([("rho", rho.num), ("E", numOpt E), ("G_s", numOpt G_s),
      ("Poisson", numOpt Poisson)].filter fun kv => kv.2.isIterable).map Prod.fst ↔
      (k, true) ∈ [("rho", rho.isRandom), ("E", randomOpt E), ("G_s", randomOpt G_s),
        ("Poisson", randomOpt Poisson)] := by
    intro k
    have a := isIterable_num rho
    have b := isIterable_numOpt E
    have c := isIterable_numOpt G_s
    have d := isIterable_numOpt Poisson
    simp only [List.mem_map, List.mem_filter, List.mem_cons, List.not_mem_nil, or_false, Prod.mk.injEq]
    constructor
    · rintro ⟨_, ⟨rfl | rfl | rfl | rfl, h⟩, rfl⟩ <;> simp_all
    · rintro (⟨rfl, h⟩ | ⟨rfl, h⟩ | ⟨rfl, h⟩ | ⟨rfl, h⟩)
      · exact ⟨("rho", rho.num), by simp_all⟩
      · exact ⟨("E", numOpt E), by simp_all⟩
      · exact ⟨("G_s", numOpt G_s), by simp_all⟩
      · exact ⟨("Poisson", numOpt Poisson), by simp_all⟩
  refine iterate_ok matParams callMaterial _ (fun i => [.str name, .num (rho.draw i), ofNum? (E.map (·.draw i)),
    ofNum? (G_s.map (·.draw i)), ofNum? (Poisson.map (·.draw i)), .str color]) _ ?_ ?_ ?_ ?_ ?_
  · simp only [Bool.or_eq_true] at hr
    rcases hr with ((h | h) | h) | h
    · exact List.ne_nil_of_mem ((hall "rho").2 (by simp [h]))
    · exact List.ne_nil_of_mem ((hall "E").2 (by simp [h]))
    · exact List.ne_nil_of_mem ((hall "G_s").2 (by simp [h]))
    · exact List.ne_nil_of_mem ((hall "Poisson").2 (by simp [h]))
  · intro k hk
    have h := (hall k).1 hk
    simp only [List.mem_cons, Prod.mk.injEq, List.not_mem_nil, or_false] at h
    rcases h with ⟨rfl, h⟩ | ⟨rfl, h⟩ | ⟨rfl, h⟩ | ⟨rfl, h⟩
    · exact ⟨_, rfl, len_num _ h.symm⟩
    all_goals exact ⟨_, rfl, len_numOpt _ h.symm⟩
  · intro i
    simp only [List.mapM_cons, List.mapM_nil]
    rw [pick_val, pick_num, pick_numOpt, pick_numOpt, pick_numOpt, pick_val]
    · rfl
    all_goals simp only [hall]; simp
  · intro i; simp [matParams]
  · intro i
    generalize E.map (·.draw i) = a
    generalize G_s.map (·.draw i) = b
    generalize Poisson.map (·.draw i) = c
    rcases a with _ | a <;> rcases b with _ | b <;> rcases c with _ | c <;> rfl

/-- C67 for point masses. -/
theorem C67_pointMass {N : ℕ} (n : ℕ) (m mx my : Option (Sample N ℝ)) (tag : Option String) (color : String)
    (is_random : List String)
    (hr : Declared is_random [("m", randomOpt m), ("mx", randomOpt mx), ("my", randomOpt my)]
      [("m", randomOpt m), ("mx", randomOpt mx), ("my", randomOpt my)]) :
    pointMasses (pointMass n (numOpt m) (numOpt mx) (numOpt my) tag color is_random) =
      (List.finRange N).mapM fun i =>
        PointMass.init (some n) (m.map (·.draw i)) (mx.map (·.draw i)) (my.map (·.draw i)) tag color := by
  obtain ⟨hne, hmust, hmay⟩ := hr
  have hall : ∀ k, k ∈ is_random ↔ (k, true) ∈ [("m", randomOpt m), ("mx", randomOpt mx), ("my", randomOpt my)] :=
    fun k => ⟨hmay k, hmust k⟩
  refine iterate_ok pmParams callPm _ (fun i => [.int n, ofNum? (m.map (·.draw i)), ofNum? (mx.map (·.draw i)),
    ofNum? (my.map (·.draw i)), .ofStr? tag, .str color]) _ hne ?_ ?_ ?_ ?_
  · intro k hk
    have h := (hall k).1 hk
    simp only [List.mem_cons, Prod.mk.injEq, List.not_mem_nil, or_false] at h
    rcases h with ⟨rfl, h⟩ | ⟨rfl, h⟩ | ⟨rfl, h⟩
    all_goals exact ⟨_, rfl, len_numOpt _ h.symm⟩
  · intro i
    simp only [pointMass, List.mapM_cons, List.mapM_nil]
    rw [pick_val, pick_numOpt, pick_numOpt, pick_numOpt, pick_val, pick_val]
    · rfl
    all_goals simp [hall]
  · intro i; simp [pmParams]
  · intro i
    generalize m.map (·.draw i) = a
    generalize mx.map (·.draw i) = b
    generalize my.map (·.draw i) = c
    rcases a with _ | a <;> rcases b with _ | b <;> rcases c with _ | c <;> rcases tag with _ | tag <;> rfl

/-- C67 for disks: node, mass, inertias and tag are those of the sample, but the colour is lost and becomes the
scale factor. -/
theorem C67_disk_partial {N : ℕ} (n : ℕ) (m Id Ip : Sample N ℝ) (tag : Option String) (color : String)
    (is_random : List String)
    (hr : Declared is_random [("m", m.isRandom), ("Id", Id.isRandom), ("Ip", Ip.isRandom)]
      [("m", m.isRandom), ("Id", Id.isRandom), ("Ip", Ip.isRandom)]) :
    disks (disk n m.num Id.num Ip.num tag color is_random) =
      .ok ((List.finRange N).map fun i =>
        ⟨n, m.draw i, Id.draw i, Ip.draw i, .ofStr? tag, .str color, .str "Firebrick"⟩) := by
  obtain ⟨hne, hmust, hmay⟩ := hr
  have hall : ∀ k, k ∈ is_random ↔ (k, true) ∈ [("m", m.isRandom), ("Id", Id.isRandom), ("Ip", Ip.isRandom)] :=
    fun k => ⟨hmay k, hmust k⟩
  rw [← mapM_okMap]
  refine iterate_ok diskParams newDisk _ (fun i => [.int n, .num (m.draw i), .num (Id.draw i),
    .num (Ip.draw i), .ofStr? tag, .str color]) _ hne ?_ ?_ ?_ ?_
  · intro k hk
    have h := (hall k).1 hk
    simp only [List.mem_cons, Prod.mk.injEq, List.not_mem_nil, or_false] at h
    rcases h with ⟨rfl, h⟩ | ⟨rfl, h⟩ | ⟨rfl, h⟩
    all_goals exact ⟨_, rfl, len_num _ h.symm⟩
  · intro i
    simp only [disk, List.mapM_cons, List.mapM_nil]
    rw [pick_val, pick_num, pick_num, pick_num, pick_val, pick_val]
    · rfl
    all_goals simp [hall]
  · intro i; simp [diskParams]
  · intro i; rfl

/-- C67 does not hold for disks: a red random disk gives disks that are not red, and whose scale factor is a
string. -/
theorem C67_disk_false :
    disks (disk 1 (.val (.arr [30, 40])) (.val (.num 0.2)) (.val (.num 0.3)) none "Red" ["m"]) =
      .ok [⟨1, 30, 0.2, 0.3, .null, .str "Red", .str "Firebrick"⟩,
        ⟨1, 40, 0.2, 0.3, .null, .str "Red", .str "Firebrick"⟩] := by
  have := C67_disk_partial (N := 2) 1 (.random ![30, 40]) (.fixed 0.2) (.fixed 0.3) none "Red" ["m"]
    ⟨by simp, by simp [Sample.isRandom], by simp [Sample.isRandom]⟩
  simpa [Sample.num, Sample.draw, List.finRange_succ, List.ofFn_succ, Val.ofStr?] using this

/-- C67 for bearings: the random coefficients are lists of numbers, or tables whose columns are the samples. -/
theorem C67_bearing {N F : ℕ} (sp : Scipy) (n : ℕ) (b : BrgSample N F) (hu : b.Uniform)
    (frequency : Option (List ℝ)) (tag : Option String) (n_link : Option ℕ) (scale_factor : ℝ)
    (is_random : List String) (hr : Declared is_random b.must b.may) :
    ∃ e, bearing n b.kxx.value b.cxx.value (coefOpt b.mxx) (coefOpt b.kyy) b.kxy.value b.kyx.value
        (coefOpt b.cyy) b.cxy.value b.cyx.value (coefOpt b.myy) b.mxy.value b.myx.value
        (.val (.ofArr? frequency)) tag n_link scale_factor is_random = .ok e ∧
      bearings sp e = (List.finRange N).mapM fun i =>
        BearingElement.init sp (b.args n frequency tag n_link scale_factor i) := by
  obtain ⟨hne, hmust, hmay⟩ := hr
  obtain ⟨tab, hN, hf⟩ : ∃ tab : Bool, (if tab then 0 < F else 0 < N) ∧ ∀ c ∈ b.given, Form tab c := by
    rcases hu with h | h
    · exact ⟨false, h⟩
    · exact ⟨true, h⟩
  have hfreq : "frequency" ∉ is_random := by
    intro h; have := hmay _ h; simp [BrgSample.may] at this
  unfold bearing
  rw [if_neg hfreq]
  simp only [default_coefOpt]
  refine ⟨_, rfl, ?_⟩
  generalize hr' : (if (coefOpt b.myy).isNone = true then alsoRandom "mxx" "myy"
      (if (coefOpt b.cyy).isNone = true then alsoRandom "cxx" "cyy"
        (if (coefOpt b.kyy).isNone = true then alsoRandom "kxx" "kyy" is_random else is_random)
      else if (coefOpt b.kyy).isNone = true then alsoRandom "kxx" "kyy" is_random else is_random)
    else if (coefOpt b.cyy).isNone = true then alsoRandom "cxx" "cyy"
        (if (coefOpt b.kyy).isNone = true then alsoRandom "kxx" "kyy" is_random else is_random)
      else if (coefOpt b.kyy).isNone = true then alsoRandom "kxx" "kyy" is_random else is_random) = r'
  have hmem : ∀ k, k ∈ r' ↔ k ∈ is_random ∨ (b.kyy = none ∧ k = "kyy" ∧ "kxx" ∈ is_random) ∨
      (b.cyy = none ∧ k = "cyy" ∧ "cxx" ∈ is_random) ∨ (b.myy = none ∧ k = "myy" ∧ "mxx" ∈ is_random) := by
    intro k
    rw [← hr']
    simp only [mem_default]
    simp only [isNone_coefOpt, Option.isNone_iff_eq_none]
    have h1 : ("cxx" : String) ≠ "kyy" := by decide
    have h2 : ("mxx" : String) ≠ "kyy" := by decide
    have h3 : ("mxx" : String) ≠ "cyy" := by decide
    tauto
  have hall : ∀ k, k ∈ r' ↔ (k, true) ∈ b.may := by
    intro k
    rw [hmem]
    constructor
    · rintro (h | ⟨h0, rfl, h⟩ | ⟨h0, rfl, h⟩ | ⟨h0, rfl, h⟩)
      · exact hmay k h
      all_goals have := hmay _ h; simp [BrgSample.may, h0] at this ⊢; exact this
    · intro h
      simp only [BrgSample.may, List.mem_cons, Prod.mk.injEq, List.not_mem_nil, or_false] at h
      rcases h with ⟨rfl, h⟩ | ⟨rfl, h⟩ | ⟨rfl, h⟩ | ⟨rfl, h⟩ | ⟨rfl, h⟩ | ⟨rfl, h⟩ | ⟨rfl, h⟩ | ⟨rfl, h⟩ |
        ⟨rfl, h⟩ | ⟨rfl, h⟩ | ⟨rfl, h⟩ | ⟨rfl, h⟩
      case inr.inr.inr.inl =>
        rcases hk : b.kyy with _ | c
        · exact .inr (.inl ⟨rfl, rfl, hmust _ (by simp [BrgSample.must, h, hk])⟩)
        · exact .inl (hmust _ (by simp [BrgSample.must, h, hk, coefRandom]))
      case inr.inr.inr.inr.inr.inr.inl =>
        rcases hk : b.cyy with _ | c
        · exact .inr (.inr (.inl ⟨rfl, rfl, hmust _ (by simp [BrgSample.must, h, hk])⟩))
        · exact .inl (hmust _ (by simp [BrgSample.must, h, hk, coefRandom]))
      case inr.inr.inr.inr.inr.inr.inr.inr.inr.inl =>
        rcases hk : b.myy with _ | c
        · exact .inr (.inr (.inr ⟨rfl, rfl, hmust _ (by simp [BrgSample.must, h, hk])⟩))
        · exact .inl (hmust _ (by simp [BrgSample.must, h, hk]))
      all_goals exact .inl (hmust _ (by simp [BrgSample.must, ← h]))
  have hne' : r' ≠ [] := by
    obtain ⟨k, hk⟩ := List.exists_mem_of_ne_nil _ hne
    exact List.ne_nil_of_mem ((hmem k).2 (.inl hk))
  -- the masses after the defaults
  obtain ⟨mx, my, hm, hmx, hmy, fmx, fmy, hinit⟩ : ∃ mx my : Option (CoefSample N F),
      (if (coefOpt b.myy).isNone = true then
        if (coefOpt b.mxx).isNone = true then ((SVal.val (.num 0), SVal.val (.num 0)) : SVal × SVal)
        else (coefOpt b.mxx, coefOpt b.mxx)
      else (coefOpt b.mxx, coefOpt b.myy)) = (coefOpt mx, coefOpt my) ∧
      coefRandom mx = coefRandom b.mxx ∧ coefRandom my = coefRandom (b.myy <|> b.mxx) ∧
      (∀ c, mx = some c → Form tab c) ∧ (∀ c, my = some c → Form tab c) ∧
      ∀ i, BearingElement.init sp ⟨n, b.kxx.draw i, b.cxx.draw i, mx.map (·.draw i),
        some ((b.kyy.getD b.kxx).draw i), b.kxy.draw i, b.kyx.draw i, some ((b.cyy.getD b.cxx).draw i),
        b.cxy.draw i, b.cyx.draw i, my.map (·.draw i), b.mxy.draw i, b.myx.draw i, frequency, tag, n_link,
        scale_factor, "#355d7a"⟩ = BearingElement.init sp (b.args n frequency tag n_link scale_factor i) := by
    have hz : Form tab (.fixed (.scalar 0) : CoefSample N F) := by cases tab <;> trivial
    have hg : ∀ i, BearingElement.init sp ⟨n, b.kxx.draw i, b.cxx.draw i, b.mxx.map (·.draw i),
        some ((b.kyy.getD b.kxx).draw i), b.kxy.draw i, b.kyx.draw i, some ((b.cyy.getD b.cxx).draw i),
        b.cxy.draw i, b.cyx.draw i, b.myy.map (·.draw i), b.mxy.draw i, b.myx.draw i, frequency, tag, n_link,
        scale_factor, "#355d7a"⟩ = BearingElement.init sp (b.args n frequency tag n_link scale_factor i) := by
      intro i
      have e1 : (b.kyy.getD b.kxx).draw i = (b.kyy.map (·.draw i)).getD (b.kxx.draw i) := by cases b.kyy <;> rfl
      have e2 : (b.cyy.getD b.cxx).draw i = (b.cyy.map (·.draw i)).getD (b.cxx.draw i) := by cases b.cyy <;> rfl
      rw [e1, e2]
      unfold BearingElement.init BrgSample.args
      rfl
    rcases h1 : b.mxx with _ | x <;> rcases h2 : b.myy with _ | y
    · refine ⟨some (.fixed (.scalar 0)), some (.fixed (.scalar 0)), rfl, rfl, rfl, ?_, ?_, ?_⟩
      · rintro c ⟨⟩; exact hz
      · rintro c ⟨⟩; exact hz
      · intro i; rw [← hg i, h1, h2]; rfl
    · refine ⟨none, some y, ?_, rfl, rfl, ?_, ?_, ?_⟩
      · simp [isNone_coefOpt]
      · rintro c ⟨⟩
      · rintro c ⟨⟩; exact hf _ (by simp [BrgSample.given, h2])
      · intro i; rw [← hg i, h1, h2]
    · refine ⟨some x, some x, ?_, rfl, rfl, ?_, ?_, ?_⟩
      · simp [isNone_coefOpt]
      · rintro c ⟨⟩; exact hf _ (by simp [BrgSample.given, h1])
      · rintro c ⟨⟩; exact hf _ (by simp [BrgSample.given, h1])
      · intro i; rw [← hg i, h1, h2]; rfl
    · refine ⟨some x, some y, ?_, rfl, rfl, ?_, ?_, ?_⟩
      · simp [isNone_coefOpt]
      · rintro c ⟨⟩; exact hf _ (by simp [BrgSample.given, h1])
      · rintro c ⟨⟩; exact hf _ (by simp [BrgSample.given, h2])
      · intro i; rw [← hg i, h1, h2]
  rw [hm]
  have fk : Form tab (b.kyy.getD b.kxx) := by
    rcases h : b.kyy with _ | c
    · exact hf _ (by simp [BrgSample.given])
    · exact hf _ (by simp [BrgSample.given, h])
  have fc : Form tab (b.cyy.getD b.cxx) := by
    rcases h : b.cyy with _ | c
    · exact hf _ (by simp [BrgSample.given])
    · exact hf _ (by simp [BrgSample.given, h])
  have hopt : ∀ s : Option (CoefSample N F), (∀ c, s = some c → Form tab c) → coefRandom s = true →
      HasLen N tab (coefOpt s) := by
    intro s h1 h2
    rcases s with _ | s
    · simp [coefRandom] at h2
    · exact hasLen_value tab s hN (h1 s rfl) h2
  unfold bearings
  rw [newBrgArgs_ok tab r' _ (fun i => [.int n, ofCoef (b.kxx.draw i), ofCoef (b.cxx.draw i),
    ofCoef? (mx.map (·.draw i)), ofCoef? (some ((b.kyy.getD b.kxx).draw i)), ofCoef (b.kxy.draw i),
    ofCoef (b.kyx.draw i), ofCoef? (some ((b.cyy.getD b.cxx).draw i)), ofCoef (b.cxy.draw i),
    ofCoef (b.cyx.draw i), ofCoef? (my.map (·.draw i)), ofCoef (b.mxy.draw i), ofCoef (b.myx.draw i),
    .ofArr? frequency, .ofStr? tag, .ofInt? n_link, .num scale_factor].map SVal.val) hne' ?_ ?_]
  · simp only [List.mapM_map]
    congr 1
    funext i
    have hp : ∀ l : List Val, (l.map SVal.val).mapM SVal.plain = .ok l := by
      intro l
      induction l with
      | nil => rfl
      | cons a l ih => rw [List.map_cons, List.mapM_cons, ih]; rfl
    simp only [Function.comp, make, positional, hp, List.length_map]
    rw [if_neg (by simp [brgParams])]
    show callBrg sp _ = _
    rw [callBrg, brgArgs_row, ← hinit i]
    rfl
  · intro k hk
    have h := (hall k).1 hk
    simp only [BrgSample.may, List.mem_cons, Prod.mk.injEq, List.not_mem_nil, or_false] at h
    rcases h with ⟨rfl, h⟩ | ⟨rfl, h⟩ | ⟨rfl, h⟩ | ⟨rfl, h⟩ | ⟨rfl, h⟩ | ⟨rfl, h⟩ | ⟨rfl, h⟩ | ⟨rfl, h⟩ |
      ⟨rfl, h⟩ | ⟨rfl, h⟩ | ⟨rfl, h⟩ | ⟨rfl, h⟩
    case inr.inr.inl => exact ⟨_, rfl, hopt _ fmx (by rw [hmx, ← h])⟩
    case inr.inr.inr.inr.inr.inr.inr.inr.inr.inl => exact ⟨_, rfl, hopt _ fmy (by rw [hmy, ← h])⟩
    case inr.inr.inr.inl => exact ⟨_, rfl, hasLen_value tab _ hN fk h.symm⟩
    case inr.inr.inr.inr.inr.inr.inl => exact ⟨_, rfl, hasLen_value tab _ hN fc h.symm⟩
    all_goals exact ⟨_, rfl, hasLen_value tab _ hN (hf _ (by simp [BrgSample.given])) h.symm⟩
  · intro i
    simp only [List.mapM_cons, List.mapM_nil]
    rw [pickAs_val, pickAs_coef, pickAs_coef, pickAs_coefOpt, pickAs_coef, pickAs_coef, pickAs_coef, pickAs_coef,
      pickAs_coef, pickAs_coef, pickAs_coefOpt, pickAs_coef, pickAs_coef, pickAs_val, pickAs_val, pickAs_val,
      pickAs_val]
    · rfl
    all_goals first | exact fk | exact fc | exact fmx | exact fmy | exact hf _ (by simp [BrgSample.given]) |
      simp [hall, BrgSample.may, hmx, hmy]

/-- The hypotheses of `C67_shaft` hold for a shaft element with random length, left outer diameter and material;
the right outer diameter need not be named. -/
example (a b : Material) :
    (MatArg.one (.mats [a, b])).value = .ok (Sample.random ![a, b]).mat ∧
    Declared ["odl", "material", "L"]
      [("L", (Sample.random ![0.25, 0.26] : Sample 2 ℝ).isRandom), ("idl", (Sample.fixed 0 : Sample 2 ℝ).isRandom),
        ("odl", (Sample.random ![0.05, 0.06] : Sample 2 ℝ).isRandom), ("idr", randomOpt (N := 2) none),
        ("odr", randomOpt (N := 2) none), ("material", (Sample.random ![a, b]).isRandom),
        ("axial_force", (Sample.fixed 0 : Sample 2 ℝ).isRandom), ("torque", (Sample.fixed 0 : Sample 2 ℝ).isRandom)]
      [("L", (Sample.random ![0.25, 0.26] : Sample 2 ℝ).isRandom), ("idl", (Sample.fixed 0 : Sample 2 ℝ).isRandom),
        ("odl", (Sample.random ![0.05, 0.06] : Sample 2 ℝ).isRandom),
        ("idr", ((none : Option (Sample 2 ℝ)).getD (.fixed 0)).isRandom),
        ("odr", ((none : Option (Sample 2 ℝ)).getD (.random ![0.05, 0.06])).isRandom),
        ("material", (Sample.random ![a, b]).isRandom),
        ("axial_force", (Sample.fixed 0 : Sample 2 ℝ).isRandom),
        ("torque", (Sample.fixed 0 : Sample 2 ℝ).isRandom)] := by
  refine ⟨by simp [MatArg.value, Sample.mat], by simp, ?_, ?_⟩ <;>
    simp [Sample.isRandom, randomOpt]

/-- The hypotheses of `C67_material` hold for a steel with random modulus, which gives two materials. -/
example : ∃ m₁ m₂, (material "Steel" (Sample.num (N := 2) (.fixed 7810))
    (numOpt (some (.random ![211e9, 212e9] : Sample 2 ℝ))) (numOpt (some (.fixed 81.2e9 : Sample 2 ℝ)))
    (numOpt (N := 2) none) "#525252" >>= materials) = .ok [m₁, m₂] ∧ m₁.E = 211e9 ∧ m₂.E = 212e9 := by
  rw [C67_material (by norm_num) "Steel" _ _ _ _ _ rfl]
  refine ⟨⟨"Steel", 7810, 211e9, 81.2e9, 211e9 / (2 * 81.2e9) - 1, "#525252"⟩,
    ⟨"Steel", 7810, 212e9, 81.2e9, 212e9 / (2 * 81.2e9) - 1, "#525252"⟩, ?_, rfl, rfl⟩
  have h : ∀ e : ℝ, Material.init "Steel" 7810 (some e) (some 81.2e9) none "#525252" =
      .ok ⟨"Steel", 7810, e, 81.2e9, e / (2 * 81.2e9) - 1, "#525252"⟩ := by
    intro e
    unfold Material.init
    rw [if_neg (by decide), if_neg (by simp [Material.given])]
    simp only [Material.pyDiv]
    rw [if_neg (by norm_num)]
    rfl
  have h1 := h 211e9
  have h2 := h 212e9
  simp only [List.finRange_succ, List.finRange_zero, List.map_cons, List.map_nil, List.mapM_cons, List.mapM_nil,
    Option.map_some, Option.map_none]
  show (Material.init "Steel" 7810 (some 211e9) (some 81.2e9) none "#525252" >>= fun _ =>
    (Material.init "Steel" 7810 (some 212e9) (some 81.2e9) none "#525252" >>= fun _ => _) >>= fun _ => _) = _
  rw [h1, h2]
  rfl

/-- The hypotheses of `C67_pointMass` hold for a point mass with random mass along `y`. -/
example : Declared ["my"] [("m", randomOpt (N := 2) none), ("mx", randomOpt (some (.fixed 1.0 : Sample 2 ℝ))),
    ("my", randomOpt (some (.random ![1.0, 2.0] : Sample 2 ℝ)))]
    [("m", randomOpt (N := 2) none), ("mx", randomOpt (some (.fixed 1.0 : Sample 2 ℝ))),
    ("my", randomOpt (some (.random ![1.0, 2.0] : Sample 2 ℝ)))] := by
  refine ⟨by simp, ?_, ?_⟩ <;> simp [Sample.isRandom, randomOpt]

/-- The hypotheses of `C67_bearing` hold for a bearing with two samples of the stiffness, -/
example : let b : BrgSample 2 0 := { kxx := .numbers ![1e6, 2e6], cxx := .fixed (.scalar 0) }
    b.Uniform ∧ Declared ["kxx"] b.must b.may := by
  refine ⟨.inl ⟨by norm_num, by simp [BrgSample.given, CoefSample.Plain]⟩, by simp, ?_, ?_⟩ <;>
    simp [BrgSample.must, BrgSample.may, CoefSample.isRandom, coefRandom]

/-- and with two samples of the stiffness at three frequencies. -/
example : let b : BrgSample 2 3 := { kxx := .table ![![1e6, 2e6], ![3e6, 4e6], ![5e6, 6e6]],
                                     cxx := .fixed (.list [0, 0, 0]) }
    b.Uniform ∧ Declared ["kxx"] b.must b.may := by
  refine ⟨.inr ⟨by norm_num, by simp [BrgSample.given, CoefSample.Tabular]⟩, by simp, ?_, ?_⟩ <;>
    simp [BrgSample.must, BrgSample.may, CoefSample.isRandom, coefRandom]

/-- C67: the samples of a bearing cannot be frequencies. -/
theorem C67_frequency (n : ℕ) (kxx cxx mxx kyy kxy kyx cyy cxy cyx myy mxy myx frequency : SVal)
    (tag : Option String) (n_link : Option ℕ) (scale_factor : ℝ) (is_random : List String)
    (h : "frequency" ∈ is_random) :
    bearing n kxx cxx mxx kyy kxy kyx cyy cxy cyx myy mxy myx frequency tag n_link scale_factor is_random =
      .error .valueError := if_pos h

/-! ### C68: random elements are not changed by using them -/

/-- C68: setting a parameter changes that parameter and no other; parameters cannot be added. -/
theorem C68_set (e : StElement) (key : String) (value : SVal) :
    (∀ e', e.setItem key value = .ok e' → e'.getItem key = .ok value ∧ e'.is_random = e.is_random ∧
      e'.attribute_dict.keys = e.attribute_dict.keys ∧ ∀ k, k ≠ key → e'.getItem k = e.getItem k) ∧
    ((∃ e', e.setItem key value = .ok e') ↔ ∃ v, e.getItem key = .ok v) ∧
    (e.setItem key value = .error .keyError ↔ e.getItem key = .error .keyError) := by
  have hk : key ∈ e.attribute_dict.keys ↔ ∃ v, e.attribute_dict.get? key = some v := mem_keys_iff _ _
  refine ⟨?_, ?_, ?_⟩
  · intro e' h
    unfold StElement.setItem at h
    split at h
    · rename_i hm
      cases h
      refine ⟨?_, rfl, keys_set _ _ _ hm, ?_⟩
      · simp [StElement.getItem, get?_set]
      · intro k hne
        simp [StElement.getItem, get?_set, hne.symm]
    · cases h
  · unfold StElement.setItem StElement.getItem
    split
    · rename_i hm
      obtain ⟨v, hv⟩ := hk.1 hm
      simp [hv]
    · rename_i hm
      have : e.attribute_dict.get? key = none := by
        cases h : e.attribute_dict.get? key with
        | none => rfl
        | some v => exact absurd (hk.2 ⟨v, h⟩) hm
      simp [this]
  · unfold StElement.setItem StElement.getItem
    split
    · rename_i hm
      obtain ⟨v, hv⟩ := hk.1 hm
      simp [hv]
    · rename_i hm
      have : e.attribute_dict.get? key = none := by
        cases h : e.attribute_dict.get? key with
        | none => rfl
        | some v => exact absurd (hk.2 ⟨v, h⟩) hm
      simp [this]

/-- C68: drawing the histograms of a random element does not change it, if it is not a shaft element with a
random material; the variables asked for have to be random. -/
theorem C68_plot_partial (e : StElement) (var_list : Option (List String)) :
    (plotOther e var_list).2 = e ∧ ("material" ∉ e.is_random → (plotShaft e var_list).2 = e) ∧
    ((plotOther e var_list).1 = match var_list with
      | none => .ok e.is_random
      | some l => if ∀ v ∈ l, v ∈ e.is_random then .ok l else .error .valueError) := by
  refine ⟨?_, ?_, ?_⟩
  · unfold plotOther; split
    · rfl
    · split <;> rfl
  · intro h
    unfold plotShaft
    simp only [h, if_false]
    split
    · rfl
    · split <;> rfl
  · unfold plotOther
    split
    · rfl
    · dsimp only; split <;> rfl

/-- C68 does not hold for a shaft element with a random material: once its histograms have been drawn, no shaft
element can be drawn from it. -/
theorem C68_plot_false (e : StElement) (l : List Material) (h : e.getItem "material" = .ok (.mats l))
    (hr : e.is_random.Nodup) (var_list : Option (List String)) :
    ∀ r, shafts (plotShaft e var_list).2 = .ok r → r = [] := by
  intro r hs
  have hd : ("material", SVal.mats l) ∈ e.attribute_dict := by
    unfold StElement.getItem at h
    split at h
    · cases h
    · rename_i v hv; cases h; exact mem_of_get? _ _ _ hv
  obtain ⟨hm, ha⟩ : "material" ∉ (plotShaft e var_list).2.is_random ∧
      (plotShaft e var_list).2.attribute_dict = e.attribute_dict := by
    have h1 : "material" ∉ (if "material" ∈ e.is_random then e.is_random.erase "material" else e.is_random) := by
      split
      · exact fun hh => (List.Nodup.mem_erase_iff hr).1 hh |>.1 rfl
      · assumption
    unfold plotShaft
    generalize (if "material" ∈ e.is_random then e.is_random.erase "material" else e.is_random) = q at h1
    dsimp only
    split
    · exact ⟨h1, rfl⟩
    · split <;> exact ⟨h1, rfl⟩
  generalize (plotShaft e var_list).2 = e' at hs hm ha
  rw [← ha] at hd
  unfold shafts iterate at hs
  split at hs
  · cases hs
  · rename_i rows hrows
    cases rows with
    | nil => cases hs; rfl
    | cons row rows =>
      exfalso
      have hrow : ∃ i, e'.attribute_dict.mapM (pick e'.is_random i) = .ok row := by
        unfold newArgs at hrows
        split at hrows
        · cases hrows
        · split at hrows
          · cases hrows
          · split at hrows
            · cases hrows
            · rename_i n hn
              have := ShapeLemmas.mapM_get hrows 0
              simp only [List.getElem?_cons_zero, Option.map_some] at this
              cases h0 : (List.range n)[0]? with
              | none => rw [h0] at this; cases this
              | some i => rw [h0] at this; exact ⟨i, by simpa using this⟩
      obtain ⟨i, hi⟩ := hrow
      have hin : SVal.mats l ∈ row := by
        rw [mapM_ok_iff] at hi
        have h2 : pick e'.is_random i ("material", .mats l) ∈ e'.attribute_dict.map (pick e'.is_random i) :=
          List.mem_map_of_mem hd
        rw [hi] at h2
        obtain ⟨x, hx, hx'⟩ := List.mem_map.1 h2
        simp [pick, hm] at hx'
        exact hx' ▸ hx
      have h3 := ShapeLemmas.mapM_get hs 0
      simp only [List.getElem?_cons_zero, Option.map_some] at h3
      cases h4 : r[0]? with
      | none => rw [h4] at h3; cases h3
      | some s =>
        rw [h4] at h3
        have h5 : make shaftParams newShaft row = .ok s := by simpa using h3
        unfold make positional at h5
        split at h5
        · cases h5
        · rename_i t ht
          split at ht
          · cases ht
          · split at ht
            · cases ht
            · rename_i vs hvs
              rw [mapM_ok_iff] at hvs
              have h6 : SVal.plain (.mats l) ∈ row.map SVal.plain := List.mem_map_of_mem hin
              rw [hvs] at h6
              obtain ⟨x, _, hx⟩ := List.mem_map.1 h6
              cases hx

/-- Such an element gives its elements before the histograms are drawn. -/
example : ∃ e s t,
    shaft (.val (.num (1 / 4))) (.val (.num (1 / 100))) (.val (.num (1 / 20))) (.val (.num 0))
      (.val (.num (1 / 10))) (.one (.mats [exMaterial, { exMaterial with name := "Other" }]))
      none (.val (.num 0)) (.val (.num 0)) true true true "cowper" ["material"] = .ok e ∧
    shafts e = .ok [s, t] ∧ s.material.name = exMaterial.name ∧ t.material.name = "Other" ∧
    (∃ l, e.getItem "material" = .ok (.mats l)) ∧ e.is_random.Nodup ∧
    ∀ r, shafts (plotShaft e none).2 = .ok r → r = [] := by
  obtain ⟨e, he, hs⟩ := C67_shaft (N := 2) (.fixed (1 / 4)) (.fixed (1 / 100)) (.fixed (1 / 20)) (some (.fixed 0))
    (some (.fixed (1 / 10))) (.random ![exMaterial, { exMaterial with name := "Other" }])
    (.one (.mats [exMaterial, { exMaterial with name := "Other" }])) (by simp [MatArg.value, Sample.mat]) none
    (.fixed 0) (.fixed 0) true true true "cowper"
    ["material"] (by refine ⟨by simp, ?_, ?_⟩ <;> simp [Sample.isRandom, randomOpt])
  have hi : ∀ name : String, ∃ s, ShaftElement.init (1 / 4) (1 / 100) (1 / 20) (some 0) (some (1 / 10))
      (some { exMaterial with name := name }) none 0 0 true true true "cowper" none 0 0 = .ok s ∧
      s.material.name = name := by
    intro name
    let s : ShaftElement :=
      { exShaft with material := { exMaterial with name := name }, n := none, axial_force := 0, alpha := 0, beta := 0 }
    refine ⟨s, ?_, rfl⟩
    refine ShaftLemmas.facts_init (s := s) (ShaftLemmas.physical_facts ?_ (.inr rfl))
    constructor <;> norm_num [s, exShaft, exMaterial, ShaftElement.beam]
  obtain ⟨s, hs1, hs2⟩ := hi exMaterial.name
  obtain ⟨t, ht1, ht2⟩ := hi "Other"
  have hg : e.getItem "material" = .ok (.mats [exMaterial, { exMaterial with name := "Other" }]) := by
    cases he; rfl
  have hn : e.is_random.Nodup := by cases he; decide
  refine ⟨e, s, t, he, ?_, hs2, ht2, ⟨_, hg⟩, hn, C68_plot_false e _ hg hn none⟩
  rw [hs]
  simp only [List.finRange_succ, List.finRange_zero, List.map_cons, List.map_nil, List.mapM_cons, List.mapM_nil]
  show (ShaftElement.init (1 / 4) (1 / 100) (1 / 20) (some 0) (some (1 / 10)) (some exMaterial) none 0 0 true true
    true "cowper" none 0 0 >>= fun _ => (ShaftElement.init (1 / 4) (1 / 100) (1 / 20) (some 0) (some (1 / 10))
    (some { exMaterial with name := "Other" }) none 0 0 true true true "cowper" none 0 0 >>= fun _ => _) >>=
    fun _ => _) = _
  rw [ht1]
  rw [show exMaterial = { exMaterial with name := exMaterial.name } from rfl, hs1]
  rfl

/-- C68 does not hold for the list `is_random` that the caller passes: it is extended, so that a second element
that is built with it fails, which can be built and drawn with a list of its own. -/
theorem C68_list_false (material : MatArg) (m : SVal) (hm : material.value = .ok m) :
    ∃ first second, shaft (.val (.num 1)) (.val (.arr [1, 2])) (.val (.num 3)) (.val .null) (.val .null) material
        none (.val (.num 0)) (.val (.num 0)) true true true "cowper" ["idl"] = .ok first ∧
      first.is_random = ["idl", "idr"] ∧
      shaft (.val (.num 1)) (.val (.arr [1, 2])) (.val (.num 3)) (.val (.num 0)) (.val .null) material
        none (.val (.num 0)) (.val (.num 0)) true true true "cowper" first.is_random = .ok second ∧
      shafts second = .error .typeError := by
  simp only [shaft, hm]
  refine ⟨_, _, rfl, rfl, rfl, ?_⟩
  unfold shafts iterate
  have : ∀ k, k ∈ ["idl", "idr"] ↔ k = "idl" ∨ k = "idr" := by simp
  simp [newArgs, alsoRandom, SVal.isNone, Dict.get?, SVal.len, List.range_succ, pick, SVal.get]
  rfl

/-! ### C71: random disks from their geometry -/

/-- C71: every disk drawn has the mass and the inertias of the disk with the geometry and the material of the
sample. -/
theorem C71_geometry {N : ℕ} (n : ℕ) (material : Sample N Material) (arg : MatArg) (harg : MatGiven arg material)
    (width i_d o_d : Sample N ℝ) (tag : Option String) (is_random : List String)
    (hr : Declared is_random
      [("material", material.isRandom), ("width", width.isRandom), ("i_d", i_d.isRandom), ("o_d", o_d.isRandom)]
      [("material", material.isRandom), ("width", width.isRandom), ("i_d", i_d.isRandom), ("o_d", o_d.isRandom)]) :
    ∃ e l, diskFromGeometry n arg width.num i_d.num o_d.num tag is_random = .ok e ∧ disks e = .ok l ∧
      l.map (fun d => (d.n, d.m, d.Id, d.Ip, d.tag)) = (List.finRange N).map fun i =>
        let d := DiskElement.fromGeometry n (material.draw i) (width.draw i) (i_d.draw i) (o_d.draw i) tag
        (d.n, d.m, d.Id, d.Ip, Val.ofStr? d.tag) := by
  obtain ⟨hne, hmust, hmay⟩ := hr
  have hall := fun k => (⟨hmay k, hmust k⟩ : k ∈ is_random ↔ _)
  obtain ⟨rho, hrho, hrr, hrd⟩ : ∃ rho : Sample N ℝ, arg.rho = .ok rho.num ∧ rho.isRandom = material.isRandom ∧
      ∀ i, rho.draw i = (material.draw i).rho := by
    cases material with
    | fixed m => exact ⟨.fixed m.rho, by rw [show arg = _ from harg]; rfl, rfl, fun i => rfl⟩
    | random f =>
      obtain ⟨e, rfl, he⟩ := harg
      refine ⟨.random fun i => (f i).rho, ?_, rfl, fun i => rfl⟩
      simp only [MatArg.rho, he, Sample.num, List.map_ofFn, Function.comp_def]
  have hval : arg.value = .ok material.mat := by
    cases material with
    | fixed m => rw [show arg = _ from harg]; rfl
    | random f =>
      obtain ⟨e, rfl, he⟩ := harg
      simp only [MatArg.value, he, Sample.mat]
  have hcheck : geometryCheck n arg width.num i_d.num o_d.num tag is_random = .ok () := by
    unfold geometryCheck
    rw [hval]
    obtain ⟨k, t, rfl⟩ := List.exists_cons_of_ne_nil hne
    have h := (hall k).1 (by simp)
    have hd : ∃ v, Dict.get? [("n", SVal.val (.int n)), ("material", material.mat), ("width", width.num),
        ("i_d", i_d.num), ("o_d", o_d.num), ("tag", .val (.ofStr? tag))] k = some v ∧ v.len = .ok N := by
      simp only [List.mem_cons, Prod.mk.injEq, List.not_mem_nil, or_false] at h
      rcases h with ⟨rfl, h⟩ | ⟨rfl, h⟩ | ⟨rfl, h⟩ | ⟨rfl, h⟩
      · exact ⟨_, rfl, len_mat _ h.symm⟩
      all_goals exact ⟨_, rfl, len_num _ h.symm⟩
    obtain ⟨v, hv, hl⟩ := hd
    have hm : List.mapM (fullCheck N (k :: t)) [("n", SVal.val (.int n)), ("material", material.mat),
        ("width", width.num), ("i_d", i_d.num), ("o_d", o_d.num), ("tag", .val (.ofStr? tag))] =
        .ok [(), (), (), (), (), ()] := by
      simp only [List.mapM_cons, List.mapM_nil]
      have h1 : fullCheck N (k :: t) ("n", .val (.int n)) = .ok () := by simp [fullCheck]
      have h2 : fullCheck N (k :: t) ("tag", .val (.ofStr? tag)) = .ok () := by
        rcases tag with _ | s <;> simp [fullCheck, Val.ofStr?]
      rw [h1, fullCheck_mat, fullCheck_num, fullCheck_num, fullCheck_num, h2]
      · rfl
      all_goals simp [hall]
    show (match Dict.get? [("n", SVal.val (.int n)), ("material", material.mat), ("width", width.num),
        ("i_d", i_d.num), ("o_d", o_d.num), ("tag", .val (.ofStr? tag))] k with
      | none => (.error .keyError : Res Unit)
      | some v => _) = _
    rw [hv]
    simp only [hl, hm]
  have hsome : (material.isRandom || width.isRandom || i_d.isRandom || o_d.isRandom) = true := by
    obtain ⟨k, hk⟩ := List.exists_mem_of_ne_nil _ hne
    have h := (hall k).1 hk
    simp only [List.mem_cons, Prod.mk.injEq, List.not_mem_nil, or_false] at h
    rcases h with ⟨-, h⟩ | ⟨-, h⟩ | ⟨-, h⟩ | ⟨-, h⟩ <;> simp [← h]
  unfold diskFromGeometry
  rw [hrho, hcheck]
  simp only [ShapeLemmas.ok_bind, broadcast_left, broadcast_num]
  refine ⟨_, _, rfl, C67_disk_partial n _ _ _ tag _ _ ⟨by simp, ?_, ?_⟩, ?_⟩
  · intro k hk
    simp only [List.mem_cons, Prod.mk.injEq, List.not_mem_nil, or_false] at hk ⊢
    rcases hk with ⟨h, -⟩ | ⟨h, -⟩ | ⟨h, -⟩ <;> simp [h]
  · intro k hk
    simp only [isRandom_map2, hrr]
    revert hsome
    have hk' : k = "m" ∨ k = "Id" ∨ k = "Ip" := by simpa using hk
    generalize material.isRandom = a
    generalize width.isRandom = b
    generalize i_d.isRandom = c
    generalize o_d.isRandom = d
    rcases hk' with rfl | rfl | rfl <;> cases a <;> cases b <;> cases c <;> cases d <;>
      simp [Sample.isRandom]
  · simp only [List.map_map]
    refine List.map_congr_left fun i _ => ?_
    simp only [Function.comp, draw_map2, hrd, DiskElement.fromGeometry, DiskElement.init, Prod.mk.injEq]
    have hfix : ∀ x : ℝ, (Sample.fixed x : Sample N ℝ).draw i = x := fun x => rfl
    simp only [hfix]
    refine ⟨trivial, ?_, ?_, ?_, trivial⟩ <;> ring

/-- The hypotheses of `C71_geometry` hold for random diameters. -/
example (m : Material) : MatGiven (N := 2) (.one (.val (.mat m))) (.fixed m) ∧
    Declared ["i_d", "o_d"]
      [("material", (Sample.fixed m : Sample 2 Material).isRandom), ("width", (Sample.fixed 0.07 : Sample 2 ℝ).isRandom),
        ("i_d", (Sample.random ![0.05, 0.06] : Sample 2 ℝ).isRandom),
        ("o_d", (Sample.random ![0.2, 0.3] : Sample 2 ℝ).isRandom)]
      [("material", (Sample.fixed m : Sample 2 Material).isRandom), ("width", (Sample.fixed 0.07 : Sample 2 ℝ).isRandom),
        ("i_d", (Sample.random ![0.05, 0.06] : Sample 2 ℝ).isRandom),
        ("o_d", (Sample.random ![0.2, 0.3] : Sample 2 ℝ).isRandom)] := by
  refine ⟨rfl, by simp, ?_, ?_⟩ <;> simp [Sample.isRandom]

/-- C71 does not hold for a list of materials, which cannot be given although it is documented. -/
theorem C71_list_false (n : ℕ) (l : List Material) (width i_d o_d : SVal) (tag : Option String)
    (is_random : List String) :
    diskFromGeometry n (.one (.mats l)) width i_d o_d tag is_random = .error .attributeError := rfl

end Ross.Props
