import Verif.Spec.StochasticFilm
import Verif.Props.Stochastic
import Verif.Props.FilmFit

/-! # Random bearings made from fluid-film data (C115) -/

namespace Ross.Props

open Stochastic Persist Spec
open Ross.Fluid hiding Sample

private theorem ofFn_const {α : Type} (N : ℕ) (x : α) : (List.ofFn fun _ : Fin N => x) = List.replicate N x := by
  apply List.ext_getElem <;> simp

/-- The array of a parameter. -/
private theorem arrays_num {N : ℕ} {is_random : List String} {k : String} (s : Sample N ℝ)
    (h : k ∈ is_random → s.isRandom = true) :
    arrays is_random N (k, s.num) = .ok (k, List.ofFn fun i => Val.num (s.draw i)) := by
  unfold arrays
  by_cases hk : k ∈ is_random
  · have := h hk
    cases s with
    | fixed a => cases this
    | random f =>
      simp [hk, Sample.num, SVal.asarray, SVal.items, Sample.draw]
      rfl
  · cases s with
    | fixed a => simp [hk, Sample.num, SVal.full, SVal.items, Sample.draw, ofFn_const]
    | random f =>
      simp [hk, Sample.num, SVal.full, SVal.items, Sample.draw]
      rfl

private theorem arrays_opt {N : ℕ} {is_random : List String} {k : String} (s : Option (Sample N ℝ))
    (h : k ∈ is_random → randomOpt s = true) :
    arrays is_random N (k, numOpt s) = .ok (k, List.ofFn fun i => Val.ofNum? (s.map (·.draw i))) := by
  cases s with
  | some s => exact arrays_num s h
  | none =>
    have hk : k ∉ is_random := fun hk => by cases h hk
    simp [arrays, hk, numOpt, SVal.full, SVal.items, Val.ofNum?, ofFn_const]

private theorem arrays_val {N : ℕ} {is_random : List String} {k : String} (v : Val) (hv : ∀ l, v ≠ .arr l)
    (h : k ∉ is_random) : arrays is_random N (k, .val v) = .ok (k, List.ofFn fun _ : Fin N => v) := by
  unfold arrays SVal.full
  rw [if_pos h, ofFn_const]
  cases v <;> simp_all [SVal.items]

private theorem asNumber?_of {s : Option ℝ} : asNumber? (Val.ofNum? s) = .ok s := by cases s <;> rfl

/-- The parameters as they are given. -/
private def filmAttrs {N : ℕ} (n : ℕ) (b : FilmSample N) (immediately : Bool) (tag : Option String)
    (n_link : Option ℕ) (scale_factor : ℝ) : Attrs :=
  [("n", .val (.int n)), ("nz", .val (.int b.nz)), ("ntheta", .val (.int b.ntheta)), ("length", b.length.num),
    ("p_in", b.p_in.num), ("p_out", b.p_out.num), ("radius_rotor", b.radius_rotor.num),
    ("radius_stator", b.radius_stator.num), ("viscosity", b.viscosity.num), ("density", b.density.num),
    ("attitude_angle", numOpt b.attitude_angle), ("eccentricity", numOpt b.eccentricity), ("load", numOpt b.load),
    ("omegap", numOpt b.omegap), ("immediately_calculate_pressure_matrix_numerically", .val (.bool immediately)),
    ("tag", .val (.ofStr? tag)), ("n_link", .val (.ofInt? n_link)), ("scale_factor", .val (.num scale_factor))]

/-- The parameters as arrays. -/
private def filmArrays {N : ℕ} (n : ℕ) (b : FilmSample N) (immediately : Bool) (tag : Option String)
    (n_link : Option ℕ) (scale_factor : ℝ) : Dict String (List Val) :=
  [("n", List.ofFn fun _ : Fin N => Val.int n), ("nz", List.ofFn fun _ : Fin N => Val.int b.nz),
    ("ntheta", List.ofFn fun _ : Fin N => Val.int b.ntheta),
    ("length", List.ofFn fun i => Val.num (b.length.draw i)), ("p_in", List.ofFn fun i => Val.num (b.p_in.draw i)),
    ("p_out", List.ofFn fun i => Val.num (b.p_out.draw i)),
    ("radius_rotor", List.ofFn fun i => Val.num (b.radius_rotor.draw i)),
    ("radius_stator", List.ofFn fun i => Val.num (b.radius_stator.draw i)),
    ("viscosity", List.ofFn fun i => Val.num (b.viscosity.draw i)),
    ("density", List.ofFn fun i => Val.num (b.density.draw i)),
    ("attitude_angle", List.ofFn fun i => Val.ofNum? (b.attitude_angle.map (·.draw i))),
    ("eccentricity", List.ofFn fun i => Val.ofNum? (b.eccentricity.map (·.draw i))),
    ("load", List.ofFn fun i => Val.ofNum? (b.load.map (·.draw i))),
    ("omegap", List.ofFn fun i => Val.ofNum? (b.omegap.map (·.draw i))),
    ("immediately_calculate_pressure_matrix_numerically", List.ofFn fun _ : Fin N => Val.bool immediately),
    ("tag", List.ofFn fun _ : Fin N => Val.ofStr? tag), ("n_link", List.ofFn fun _ : Fin N => Val.ofInt? n_link),
    ("scale_factor", List.ofFn fun _ : Fin N => Val.num scale_factor)]

private theorem filmArrays_get {N : ℕ} (n : ℕ) (b : FilmSample N) (immediately : Bool) (tag : Option String)
    (n_link : Option ℕ) (scale_factor : ℝ) (w : ℝ) (i : Fin N) :
    filmArgs (filmArrays n b immediately tag n_link scale_factor) w i = .ok (b.film w i) := by
  have he : ∀ (k : String) (f : Fin N → Val), (filmArrays n b immediately tag n_link scale_factor).get? k =
      some (List.ofFn f) → entryOf (filmArrays n b immediately tag n_link scale_factor) k i = .ok (f i) := by
    intro k f h
    unfold entryOf
    rw [h]
    simp
  unfold filmArgs
  rw [he "nz" _ rfl, he "ntheta" _ rfl, he "length" _ rfl, he "p_in" _ rfl, he "p_out" _ rfl,
    he "radius_rotor" _ rfl, he "radius_stator" _ rfl, he "viscosity" _ rfl, he "density" _ rfl,
    he "attitude_angle" _ rfl, he "eccentricity" _ rfl, he "load" _ rfl, he "omegap" _ rfl]
  simp only [bind, Except.bind, asCount, asNumber, asNumber?_of]
  rfl

/-- What `from_fluid_flow` does for the data of `N` samples. -/
private theorem fromFluidFlow_eq {N : ℕ} (lib : FlowLib) (n : ℕ) (b : FilmSample N) (omega : List ℝ)
    (immediately : Bool) (tag : Option String) (n_link : Option ℕ) (scale_factor : ℝ) (is_random : List String)
    (hne : is_random ≠ []) (hr : ∀ k ∈ is_random, (k, true) ∈ b.random) :
    fromFluidFlow lib n (.val (.int b.nz)) (.val (.int b.ntheta)) b.length.num (.val (.arr omega)) b.p_in.num
        b.p_out.num b.radius_rotor.num b.radius_stator.num b.viscosity.num b.density.num (numOpt b.attitude_angle)
        (numOpt b.eccentricity) (numOpt b.load) (numOpt b.omegap) immediately tag n_link scale_factor
        (some is_random) =
      (omega.mapM fun w => (List.range N).mapM
        (filmCoefs lib (filmArrays n b immediately tag n_link scale_factor) w)) >>= fun rows =>
      bearing n (coefTable rows Coefs.K 0) (coefTable rows Coefs.C 0) (kyy := coefTable rows Coefs.K 3)
        (kxy := coefTable rows Coefs.K 1) (kyx := coefTable rows Coefs.K 2) (cyy := coefTable rows Coefs.C 3)
        (cxy := coefTable rows Coefs.C 1) (cyx := coefTable rows Coefs.C 2) (frequency := .val (.arr omega)) (tag := tag)
        (n_link := n_link) (scale_factor := scale_factor)
        (is_random := ["kxx", "kxy", "kyx", "kyy", "cxx", "cxy", "cyx", "cyy"]) := by
  have hno : ∀ k, k ∉ b.random.map Prod.fst → k ∉ is_random := fun k hk h =>
    hk (List.mem_map_of_mem (f := Prod.fst) (hr k h))
  have hmem : ∀ k ∈ is_random, _ := hr
  cases is_random with
  | nil => exact absurd rfl hne
  | cons k0 l =>
    have hlen : ∀ s : Spec.Sample N ℝ, s.isRandom = true → s.num.len = .ok N := by
      intro s hs
      cases s with
      | fixed a => cases hs
      | random f => simp [Spec.Sample.num, SVal.len]
    have hlen' : ∀ s : Option (Spec.Sample N ℝ), randomOpt s = true → (numOpt s).len = .ok N := by
      intro s hs
      cases s with
      | none => cases hs
      | some s => exact hlen s hs
    have h0 := hr k0 (by simp)
    have hsize : ∀ k, (k, true) ∈ b.random → ∃ v,
        (filmAttrs n b immediately tag n_link scale_factor).get? k = some v ∧ v.len = .ok N := by
      intro k hk
      simp only [FilmSample.random, List.mem_cons, Prod.mk.injEq, List.not_mem_nil, or_false] at hk
      rcases hk with ⟨rfl, h⟩ | ⟨rfl, h⟩ | ⟨rfl, h⟩ | ⟨rfl, h⟩ | ⟨rfl, h⟩ | ⟨rfl, h⟩ | ⟨rfl, h⟩ | ⟨rfl, h⟩ |
        ⟨rfl, h⟩ | ⟨rfl, h⟩ | ⟨rfl, h⟩
      all_goals first | exact ⟨_, rfl, hlen _ h.symm⟩ | exact ⟨_, rfl, hlen' _ h.symm⟩
    have hd : List.mapM (arrays (k0 :: l) N) (filmAttrs n b immediately tag n_link scale_factor) =
        .ok (filmArrays n b immediately tag n_link scale_factor) := by
      rw [mapM_ok_iff]
      unfold filmArrays filmAttrs
      have hp : ∀ (k : String) (x : Bool), (k, true) ∈ b.random → (b.random.filter (·.1 = k)) = [(k, x)] → x = true := by
        intro k x h1 h2
        have : (k, true) ∈ b.random.filter (·.1 = k) := by simp [h1]
        rw [h2, List.mem_singleton, Prod.mk.injEq] at this
        exact this.2.symm
      have hq : ∀ (k : String) (x : Bool), (b.random.filter (·.1 = k)) = [(k, x)] → k ∈ k0 :: l → x = true :=
        fun k x h2 h => hp k x (hr k h) h2
      simp only [List.map_cons, List.map_nil]
      rw [arrays_val (k := "n") _ (by simp) (hno _ (by simp [FilmSample.random])),
        arrays_val (k := "nz") _ (by simp) (hno _ (by simp [FilmSample.random])),
        arrays_val (k := "ntheta") _ (by simp) (hno _ (by simp [FilmSample.random])),
        arrays_num (k := "length") _ (hq _ _ rfl), arrays_num (k := "p_in") _ (hq _ _ rfl),
        arrays_num (k := "p_out") _ (hq _ _ rfl), arrays_num (k := "radius_rotor") _ (hq _ _ rfl),
        arrays_num (k := "radius_stator") _ (hq _ _ rfl), arrays_num (k := "viscosity") _ (hq _ _ rfl),
        arrays_num (k := "density") _ (hq _ _ rfl), arrays_opt (k := "attitude_angle") _ (hq _ _ rfl),
        arrays_opt (k := "eccentricity") _ (hq _ _ rfl), arrays_opt (k := "load") _ (hq _ _ rfl),
        arrays_opt (k := "omegap") _ (hq _ _ rfl),
        arrays_val (k := "immediately_calculate_pressure_matrix_numerically") _ (by simp)
          (hno _ (by simp [FilmSample.random])),
        arrays_val (k := "tag") _ (by cases tag <;> simp [Val.ofStr?]) (hno _ (by simp [FilmSample.random])),
        arrays_val (k := "n_link") _ (by cases n_link <;> simp [Val.ofInt?]) (hno _ (by simp [FilmSample.random])),
        arrays_val (k := "scale_factor") _ (by simp) (hno _ (by simp [FilmSample.random]))]
    obtain ⟨v, hv, hvl⟩ := hsize k0 h0
    unfold filmAttrs at hv hd
    unfold fromFluidFlow
    dsimp only [bind, Except.bind]
    rw [hv]
    dsimp only
    rw [hvl]
    dsimp only
    rw [hd]

private theorem filmCoefs_ok {N : ℕ} (lib : FlowLib) (n : ℕ) (b : FilmSample N) (immediately : Bool)
    (tag : Option String) (n_link : Option ℕ) (scale_factor : ℝ) (w : ℝ) (i : Fin N) (c : Coefs) :
    filmCoefs lib (filmArrays n b immediately tag n_link scale_factor) w i = .ok c ↔
      ∃ film left, (b.film w i).init lib = .ok film ∧
        calculate_stiffness_and_damping_coefficients lib film = .ok (left, c) := by
  unfold filmCoefs
  rw [filmArrays_get]
  constructor
  · intro h
    obtain ⟨a, ha, h⟩ := FluidLemmas.bindOk h
    cases ha
    obtain ⟨film, hf, h⟩ := FluidLemmas.bindOk h
    obtain ⟨⟨left, c'⟩, hc, h⟩ := FluidLemmas.bindOk h
    cases h
    exact ⟨film, left, hf, hc⟩
  · rintro ⟨film, left, hf, hc⟩
    show ((b.film w i).init lib >>= _) = _
    rw [hf]
    show (calculate_stiffness_and_damping_coefficients lib film >>= _) = _
    rw [hc]
    rfl

private theorem range_ofFn {α : Type} (N : ℕ) (f : ℕ → Res α) (g : Fin N → α) :
    (List.range N).mapM f = .ok (List.ofFn g) ↔ ∀ i : Fin N, f i = .ok (g i) := by
  rw [mapM_ok_iff]
  constructor
  · intro h i
    have := congrArg (fun t => t[(i : ℕ)]?) h
    simpa using this
  · intro h
    apply List.ext_getElem
    · simp
    · intro m h1 h2
      simp only [List.length_map, List.length_range] at h1
      simpa using h ⟨m, h1⟩

/-- C115: each bearing drawn from the random bearing has, at each speed, the coefficients of the film with the data of
its sample at that speed.  `is_random` names parameters with one value for each sample, at least one; it need not name
all of them. -/
theorem C115_samples {N F : ℕ} (sp : Scipy) (lib : FlowLib) (n : ℕ) (b : FilmSample N) (omega : Fin F → ℝ) (hF : 0 < F)
    (immediately : Bool) (tag : Option String) (n_link : Option ℕ) (scale_factor : ℝ) (is_random : List String)
    (hne : is_random ≠ []) (hr : ∀ k ∈ is_random, (k, true) ∈ b.random)
    (kxx kxy kyx kyy cxx cxy cyx cyy : Fin F → Fin N → ℝ)
    (hc : ∀ j i, FilmCoefs lib (b.film (omega j) i) (kxx j i) (kxy j i) (kyx j i) (kyy j i) (cxx j i) (cxy j i)
      (cyx j i) (cyy j i)) :
    ∃ e, fromFluidFlow lib n (.val (.int b.nz)) (.val (.int b.ntheta)) b.length.num (.val (.arr (List.ofFn omega)))
        b.p_in.num b.p_out.num b.radius_rotor.num b.radius_stator.num b.viscosity.num b.density.num
        (numOpt b.attitude_angle) (numOpt b.eccentricity) (numOpt b.load) (numOpt b.omegap) immediately tag n_link
        scale_factor (some is_random) = .ok e ∧
      bearings sp e = (List.finRange N).mapM fun i => BearingElement.init sp
        { n := n, kxx := .list (List.ofFn fun j => kxx j i), cxx := .list (List.ofFn fun j => cxx j i)
          kyy := some (.list (List.ofFn fun j => kyy j i)), cyy := some (.list (List.ofFn fun j => cyy j i))
          kxy := .list (List.ofFn fun j => kxy j i), kyx := .list (List.ofFn fun j => kyx j i)
          cxy := .list (List.ofFn fun j => cxy j i), cyx := .list (List.ofFn fun j => cyx j i)
          frequency := some (List.ofFn omega), tag := tag, n_link := n_link, scale_factor := scale_factor } := by
  rw [fromFluidFlow_eq lib n b _ immediately tag n_link scale_factor is_random hne hr]
  have hrows : ((List.ofFn omega).mapM fun w => (List.range N).mapM
      (filmCoefs lib (filmArrays n b immediately tag n_link scale_factor) w)) =
      .ok (List.ofFn fun j => List.ofFn fun i =>
        (⟨[kxx j i, kxy j i, kyx j i, kyy j i], [cxx j i, cxy j i, cyx j i, cyy j i]⟩ : Coefs)) := by
    rw [mapM_ok_iff]
    rw [List.map_ofFn, List.map_ofFn]
    congr 1
    funext j
    exact (range_ofFn _ _ _).2 fun i => (filmCoefs_ok ..).2 (hc j i)
  rw [hrows]
  have hcol : ∀ (list : Coefs → List ℝ) (m : ℕ) (f : Fin F → Fin N → ℝ),
      (∀ j i, (list ⟨[kxx j i, kxy j i, kyx j i, kyy j i], [cxx j i, cxy j i, cyx j i, cyy j i]⟩).getD m 0 = f j i) →
      coefTable (List.ofFn fun j => List.ofFn fun i =>
        (⟨[kxx j i, kxy j i, kyx j i, kyy j i], [cxx j i, cxy j i, cyx j i, cyy j i]⟩ : Coefs)) list m =
        (CoefSample.table f : CoefSample N F).value := by
    intro list m f h
    unfold coefTable
    simp only [CoefSample.value, List.map_ofFn]
    congr 2
    funext j
    simp only [Function.comp, List.map_ofFn]
    congr 1
    funext i
    exact h j i
  dsimp only [bind, Except.bind]
  rw [hcol Coefs.K 0 kxx (fun _ _ => rfl), hcol Coefs.K 1 kxy (fun _ _ => rfl), hcol Coefs.K 2 kyx (fun _ _ => rfl),
    hcol Coefs.K 3 kyy (fun _ _ => rfl), hcol Coefs.C 0 cxx (fun _ _ => rfl), hcol Coefs.C 1 cxy (fun _ _ => rfl),
    hcol Coefs.C 2 cyx (fun _ _ => rfl), hcol Coefs.C 3 cyy (fun _ _ => rfl)]
  exact C67_bearing sp n
    { kxx := .table kxx, cxx := .table cxx, kyy := some (.table kyy), kxy := .table kxy, kyx := .table kyx,
      cyy := some (.table cyy), cxy := .table cxy, cyx := .table cyx }
    (.inr ⟨hF, by simp [BrgSample.given, CoefSample.Tabular]⟩) (some (List.ofFn omega)) tag n_link scale_factor _
    ⟨by simp, by simp [BrgSample.must, CoefSample.isRandom, coefRandom],
      by simp [BrgSample.may, CoefSample.isRandom, coefRandom]⟩

private theorem four_coefs {lib : FlowLib} {film left : FluidFlow} {c : Coefs}
    (hc : calculate_stiffness_and_damping_coefficients lib film = .ok (left, c)) :
    ∃ kxx kxy kyx kyy cxx cxy cyx cyy, c = ⟨[kxx, kxy, kyx, kyy], [cxx, cxy, cyx, cyy]⟩ := by
  unfold calculate_stiffness_and_damping_coefficients at hc
  dsimp only at hc
  obtain ⟨⟨G, l⟩, -, hc⟩ := FluidLemmas.bindOk hc
  obtain ⟨c', h', hc⟩ := FluidLemmas.bindOk hc
  cases hc
  unfold fit_samples at h'
  obtain ⟨P1, -, h'⟩ := FluidLemmas.bindOk h'
  obtain ⟨P2, -, h'⟩ := FluidLemmas.bindOk h'
  obtain ⟨P3, -, h'⟩ := FluidLemmas.bindOk h'
  obtain ⟨P4, -, h'⟩ := FluidLemmas.bindOk h'
  cases h'
  exact ⟨_, _, _, _, _, _, _, _, rfl⟩

/-- C115: a random bearing is made only if each film, at each speed and of each sample, has coefficients. -/
theorem C115_all {N : ℕ} (lib : FlowLib) (n : ℕ) (b : FilmSample N) (omega : List ℝ)
    (immediately : Bool) (tag : Option String) (n_link : Option ℕ) (scale_factor : ℝ) (is_random : List String)
    (hne : is_random ≠ []) (hr : ∀ k ∈ is_random, (k, true) ∈ b.random) {e : StElement}
    (h : fromFluidFlow lib n (.val (.int b.nz)) (.val (.int b.ntheta)) b.length.num (.val (.arr omega))
        b.p_in.num b.p_out.num b.radius_rotor.num b.radius_stator.num b.viscosity.num b.density.num
        (numOpt b.attitude_angle) (numOpt b.eccentricity) (numOpt b.load) (numOpt b.omegap) immediately tag n_link
        scale_factor (some is_random) = .ok e) :
    ∀ w ∈ omega, ∀ i : Fin N, ∃ kxx kxy kyx kyy cxx cxy cyx cyy,
      FilmCoefs lib (b.film w i) kxx kxy kyx kyy cxx cxy cyx cyy := by
  rw [fromFluidFlow_eq lib n b _ immediately tag n_link scale_factor is_random hne hr] at h
  obtain ⟨rows, h, -⟩ := FluidLemmas.bindOk h
  intro w hw i
  rw [mapM_ok_iff] at h
  have h1 : (List.range N).mapM (filmCoefs lib (filmArrays n b immediately tag n_link scale_factor) w) ∈
      rows.map Except.ok := by
    rw [← h]
    exact List.mem_map_of_mem hw
  obtain ⟨row, -, h1⟩ := List.mem_map.1 h1
  have h2 := (mapM_ok_iff _ _ _).1 h1.symm
  have h3 : filmCoefs lib (filmArrays n b immediately tag n_link scale_factor) w i ∈ row.map Except.ok := by
    rw [← h2]
    exact List.mem_map_of_mem (List.mem_range.2 i.2)
  obtain ⟨c, -, h3⟩ := List.mem_map.1 h3
  obtain ⟨film, left, hf, hc⟩ := (filmCoefs_ok ..).1 h3.symm
  obtain ⟨a1, a2, a3, a4, a5, a6, a7, a8, rfl⟩ := four_coefs hc
  exact ⟨a1, a2, a3, a4, a5, a6, a7, a8, film, left, hf, hc⟩

/-- C115, what is not true: the documentation lists the speed among the parameters that can be random, but naming it
first raises `KeyError`. -/
theorem C115_omega_false (lib : FlowLib) (n : ℕ) (nz ntheta length omega p_in p_out radius_rotor radius_stator
    viscosity density attitude_angle eccentricity load omegap : SVal) (immediately : Bool) (tag : Option String)
    (n_link : Option ℕ) (scale_factor : ℝ) (others : List String) :
    fromFluidFlow lib n nz ntheta length omega p_in p_out radius_rotor radius_stator viscosity density attitude_angle
      eccentricity load omegap immediately tag n_link scale_factor (some ("omega" :: others)) = .error .keyError := by
  rfl

/-- C115: a short cylindrical bearing with a given eccentricity, a ten-thousandth of the clearance away from the stator,
has coefficients. -/
theorem C115_short (lib : FlowLib) (a : FlowArgs) (hz : a.nz ≠ 1) (ht : a.ntheta ≠ 1)
    (hb : bearing_type_of a = "short_bearing") (hs : a.shape_geometry = "cylindrical") (hl : a.load = none)
    (hi : a.immediately = true) (hp : a.omegap = none) (hw : a.omega ≠ 0) {e : ℝ} (he : a.eccentricity = some e)
    (h0 : 0 ≤ e) (h1 : e ≤ 0.9999 * (a.radius_stator - a.radius_rotor)) (hc : 0 < a.radius_stator - a.radius_rotor)
    (hR : a.radius_stator - a.radius_rotor ≤ a.radius_rotor) :
    ∃ kxx kxy kyx kyy cxx cxy cyx cyy, FilmCoefs lib a kxx kxy kyx kyy cxx cxy cyx cyy := by
  have hinit : ∃ F, a.init lib = .ok F := by
    obtain ⟨G, hG, hGe, hGs, hGc, hGr⟩ : ∃ G : FluidFlow, positioned lib a = (set_center G).geometry_description ∧
        G.eccentricity = e ∧ G.shape_geometry = "cylindrical" ∧ G.radial_clearance = a.radius_stator - a.radius_rotor ∧
        G.radius_rotor = a.radius_rotor := by
      unfold positioned
      dsimp only
      rw [if_pos ⟨hb, hs⟩]
      unfold short_position
      rw [hl, he]
      exact ⟨_, rfl, by simp [blank, he], hs, rfl, rfl⟩
    obtain ⟨K, f, hK⟩ := FluidLemmas.film_succeeds (F := set_center G) ⟨hGs, by rw [← hGe] at h0; exact h0, by
      show G.eccentricity ≤ G.radial_clearance
      rw [hGe, hGc]; linarith, by
      show G.radial_clearance ≤ G.radius_rotor
      rw [hGc, hGr]; exact hR⟩ lib none
    obtain ⟨K1, hg, hK⟩ := FluidLemmas.film_parts hK
    unfold FlowArgs.init
    rw [if_neg (by simp [hz, ht]), hG, hg]
    dsimp only [bind, Except.bind]
    rw [if_pos hi]
    unfold FluidFlow.calculate_pressure_matrix_numerical at hK ⊢
    have hcc : ({ K1 with
        p_mat_analytical := fun _ _ => 0
        p_mat_numerical := fun _ _ => 0
        analytical_pressure_matrix_available := false
        numerical_pressure_matrix_available := false } : FluidFlow).calculate_coefficients none =
        K1.calculate_coefficients none := rfl
    rw [hcc]
    cases hq : K1.calculate_coefficients none with
    | error x => rw [hq] at hK; cases hK
    | ok c => exact ⟨_, rfl⟩
  obtain ⟨F, hF⟩ := hinit
  obtain ⟨e', he', h2, -⟩ := C77_short_eccentricity hF hb hs hl
  rw [he] at he'
  cases he'
  have hd := C77_data hF
  obtain ⟨hcen, -⟩ := C77_centre hF
  have hcl : F.radial_clearance = a.radius_stator - a.radius_rotor := by
    unfold FluidFlow.radial_clearance
    rw [hd.2.2.2.2.2.2.1, hd.2.2.2.2.2.2.2.1]
  have hnorm : √(F.xi ^ 2 + F.yi ^ 2) = e := by
    have e1 : F.xi = (Spec.Fluid.centre F.eccentricity F.attitude_angle).1 := by rw [← hcen]
    have e2 : F.yi = (Spec.Fluid.centre F.eccentricity F.attitude_angle).2 := by rw [← hcen]
    rw [e1, e2, FluidLemmas.centre_sq, h2]
    exact Real.sqrt_sq h0
  obtain ⟨G, c, hG⟩ := C85_succeeds lib (F := F) (hd.2.2.2.2.2.2.2.2.2.1.trans hs)
    (by rw [hd.2.2.2.2.2.2.2.2.2.2.2.2.2.2.1 hp]; exact hw) (by rw [hcl]; exact hc)
    (by rw [hcl, hd.2.2.2.2.2.2.1]; exact hR) (by rw [hcl, hnorm]; exact h1)
  obtain ⟨a1, a2, a3, a4, a5, a6, a7, a8, rfl⟩ := four_coefs hG
  exact ⟨a1, a2, a3, a4, a5, a6, a7, a8, F, G, hF, hG⟩

/-- A random bearing with two viscosities and speeds. -/
example (sp : Scipy) (lib : FlowLib) : ∃ (b : FilmSample 2) (e : StElement), b.viscosity = .random ![0.015, 0.02] ∧
    fromFluidFlow lib 0 (.val (.int b.nz)) (.val (.int b.ntheta)) b.length.num (.val (.arr [10, 20])) b.p_in.num
      b.p_out.num b.radius_rotor.num b.radius_stator.num b.viscosity.num b.density.num (numOpt b.attitude_angle)
      (numOpt b.eccentricity) (numOpt b.load) (numOpt b.omegap) (is_random := some ["viscosity"]) = .ok e := by
  let b : FilmSample 2 :=
    { nz := 8, ntheta := 32, length := .fixed 0.04, p_in := .fixed 0, p_out := .fixed 0, radius_rotor := .fixed 0.2,
      radius_stator := .fixed 0.2002, viscosity := .random ![0.015, 0.02], density := .fixed 860,
      eccentricity := some (.fixed 0.0001) }
  let omega : Fin 2 → ℝ := ![10, 20]
  have hw : ∀ j, omega j ≠ 0 := by
    intro j
    fin_cases j <;> simp [omega]
  have hc : ∀ j i, ∃ kxx kxy kyx kyy cxx cxy cyx cyy,
      FilmCoefs lib (b.film (omega j) i) kxx kxy kyx kyy cxx cxy cyx cyy := fun j i =>
    C115_short lib _ (by simp [b, FilmSample.film]) (by simp [b, FilmSample.film])
      (if_pos (by norm_num [b, FilmSample.film, Spec.Sample.draw])) rfl rfl rfl rfl (hw j) rfl (by norm_num [Spec.Sample.draw])
      (by norm_num [b, FilmSample.film, Spec.Sample.draw]) (by norm_num [b, FilmSample.film, Spec.Sample.draw])
      (by norm_num [b, FilmSample.film, Spec.Sample.draw])
  choose kxx kxy kyx kyy cxx cxy cyx cyy hc using hc
  obtain ⟨e, he, -⟩ := C115_samples sp lib 0 b omega (by norm_num) true none none 1 ["viscosity"] (by simp)
    (by simp [b, FilmSample.random, Spec.Sample.isRandom]) kxx kxy kyx kyy cxx cxy cyx cyy hc
  refine ⟨b, e, rfl, ?_⟩
  rw [← he]
  simp [omega, List.ofFn_succ]

end Ross.Props
