import Verif.Lemmas.Units

/-! # C32: arguments with units -/

namespace Ross.Props

open Ross Ross.Spec Ross.Units Ross.BearingLemmas Ross.UnitsLemmas

/-! ### Single arguments -/

/-- **C32** a quantity reaches the function as its magnitude in the library unit for the name of the
argument, whatever unit it was given in; a quantity of another dimension is refused. -/
theorem C32_quantity {name : String} {d : Dim} (hc : Converted name) (hu : HasUnit name d) (u : PintUnit)
    (x : ℝ) (xs : List ℝ) :
    (u.dim = d → deliver name (.qty (.scalar x u)) = .ok (.num (inSI u x)) ∧
      deliver name (.qty (.array xs u)) = .ok (.arr (xs.map (inSI u)))) ∧
    (u.dim ≠ d → deliver name (.qty (.scalar x u)) = .error .typeError ∧
      deliver name (.qty (.array xs u)) = .error .typeError) := by
  rw [deliver_unit hc hu, deliver_unit hc hu]
  constructor
  · intro h
    exact ⟨by simp [toUnit, h, inSI], by simp only [toUnit, if_pos h]; rfl⟩
  · intro h; simp [toUnit, h]

/-- **C32** the same physical quantity in two units is delivered as the same number. -/
theorem C32_same {name : String} {d : Dim} (hc : Converted name) (hu : HasUnit name d) {u w : PintUnit}
    {x y : ℝ} (hd : u.dim = w.dim) (h : inSI u x = inSI w y) :
    deliver name (.qty (.scalar x u)) = deliver name (.qty (.scalar y w)) := by
  by_cases hud : u.dim = d
  · rw [((C32_quantity hc hu u x []).1 hud).1, ((C32_quantity hc hu w y []).1 (hd ▸ hud)).1, h]
  · rw [((C32_quantity hc hu u x []).2 hud).1, ((C32_quantity hc hu w y []).2 (hd ▸ hud)).1]

/-- **C32** plain numbers, arrays, `None`, strings and other objects pass unchanged, whatever the name;
a list passes unchanged or as the array of its elements. -/
theorem C32_plain (name : String) (x : ℝ) (xs : List ℝ) (s : String) :
    deliver name (.num x) = .ok (.num x) ∧ deliver name (.arr xs) = .ok (.arr xs) ∧
    deliver name .none = .ok .none ∧ deliver name (.refused s) = .ok (.refused s) ∧
    deliver name (.obj s) = .ok (.obj s) ∧
    (deliver name (.list xs) = .ok (.list xs) ∨ deliver name (.list xs) = .ok (.arr xs)) := by
  unfold deliver
  split_ifs with h
  · simp
  · cases (names name).findSome? unitOf <;> simp [toUnit]

/-- **C32** arguments whose name has no library unit are not touched, and neither are those with a part
`units`. -/
theorem C32_untouched (name : String) (v : Val) (h : ¬ Converted name ∨ ∀ d, ¬ HasUnit name d) :
    deliver name v = .ok v := by
  unfold deliver
  split_ifs with hs
  · rfl
  · have hn : (names name).findSome? unitOf = none := by
      rcases h with h | h
      · exact absurd (converted_iff.2 hs) h
      · cases hf : (names name).findSome? unitOf with
        | none => rfl
        | some d => exact absurd (hasUnit_iff.2 hf) (h d)
    rw [hn]
    cases v <;> rfl

/-- **C32** what was converted once is not changed by a second decorated function: constructors that
call decorated constructors do not convert twice. -/
theorem C32_once (name name' : String) {d : Dim} (hc : Converted name) (hu : HasUnit name d) {v w : Val}
    (h : deliver name v = .ok w) : deliver name' w = .ok w := by
  rw [deliver_unit hc hu] at h
  have key : ∀ x xs s, deliver name' (.num x) = .ok (.num x) ∧ deliver name' (.arr xs) = .ok (.arr xs) ∧
      deliver name' .none = .ok .none ∧ deliver name' (.refused s) = .ok (.refused s) ∧
      deliver name' (.obj s) = .ok (.obj s) := fun x xs s => by
    obtain ⟨h1, h2, h3, h4, h5, -⟩ := C32_plain name' x xs s
    exact ⟨h1, h2, h3, h4, h5⟩
  cases v with
  | none => cases h; exact (key 0 [] "").2.2.1
  | num x => cases h; exact (key x [] "").1
  | list xs => cases h; exact (key 0 xs "").2.1
  | arr xs => cases h; exact (key 0 xs "").2.1
  | qty q =>
    cases q with
    | scalar x u =>
      by_cases hd : u.dim = d
      · simp only [toUnit, if_pos hd] at h
        cases h; exact (key _ [] "").1
      · simp only [toUnit, if_neg hd] at h
        cases h
    | array xs u =>
      by_cases hd : u.dim = d
      · simp only [toUnit, if_pos hd] at h
        cases h; exact (key 0 _ "").2.1
      · simp only [toUnit, if_neg hd] at h
        cases h
  | refused s => cases h; exact (key 0 [] s).2.2.2.1
  | obj s => cases h; exact (key 0 [] s).2.2.2.2

/-! ### Calls -/

/-- **C32** positional and keyword passing give the same values: a decorated call binds every parameter to
the converted value of what the plain call would bind it to, and raises if one of them cannot be
converted. -/
theorem C32_style (f : Sig) (args : List Val) (kwargs b : List (String × Val))
    (h : bindCall f args kwargs = .ok (b, [])) :
    callWrapped f args kwargs = (convertAll b).map fun c => (c, []) := by
  unfold bindCall at h
  split_ifs at h with h1 h2 h3 h4
  simp only [Except.ok.injEq, Prod.mk.injEq] at h
  obtain ⟨rfl, hd⟩ := h
  have hlen : args.length ≤ f.params.length := by simpa using hd
  have hz : (f.params.zip args).length = args.length := by simp [hlen]
  have hfst : (f.params.zip args).map Prod.fst = f.params.take args.length := by
    have : ∀ (l : List String) (m : List Val), m.length ≤ l.length → (l.zip m).map Prod.fst = l.take m.length := by
      intro l
      induction l with
      | nil => intro m hm; simp
      | cons a l ih =>
        intro m hm
        cases m with
        | nil => simp
        | cons b m => simpa using ih m (by simpa using hm)
    exact this _ _ hlen
  have hc : ∀ l, convertAll l = (l.mapM fun p => deliver p.1 p.2).map fun vs => (l.map Prod.fst).zip vs :=
    kw_mapM
  have happ : convertAll (f.params.zip args ++ kwargs) = (do
      let x ← convertAll (f.params.zip args)
      let y ← convertAll kwargs
      pure (x ++ y)) := by
    unfold convertAll
    exact List.mapM_append
  rw [happ, hc (f.params.zip args), hfst]
  unfold callWrapped
  cases hA : (f.params.zip args).mapM (fun p => deliver p.1 p.2) with
  | error e => rfl
  | ok A =>
    have hAl : A.length = args.length := by
      have := congrArg List.length ((mapM_ok_iff _ _ _).1 hA)
      simp only [List.length_map] at this
      omega
    show (convertAll kwargs >>= fun K => bindCall f A K) =
      Except.map (fun c => (c, [])) (convertAll kwargs >>= fun y =>
        pure ((f.params.take args.length).zip A ++ y))
    cases hK : convertAll kwargs with
    | error e => rfl
    | ok K =>
      have hKk : K.map Prod.fst = kwargs.map Prod.fst := by
        rw [hc kwargs] at hK
        cases hv : kwargs.mapM (fun p => deliver p.1 p.2) with
        | error e => rw [hv] at hK; cases hK
        | ok V =>
          rw [hv] at hK
          cases hK
          have := congrArg List.length ((mapM_ok_iff _ _ _).1 hv)
          simp only [List.length_map] at this
          rw [List.map_fst_zip]
          simp [this]
      have hmem : ∀ P : String → Prop, (∃ p ∈ K, P p.1) ↔ ∃ p ∈ kwargs, P p.1 := by
        intro P
        have e : ∀ l : List (String × Val), (∃ p ∈ l, P p.1) ↔ ∃ k ∈ l.map Prod.fst, P k := by
          intro l; simp
        rw [e, e, hKk]
      show bindCall f A K = .ok ((f.params.take args.length).zip A ++ K, [])
      unfold bindCall
      rw [hAl, if_neg h1, if_neg (by rw [hmem (fun k => k ∈ f.params.take args.length)]; exact h2),
        if_neg (by rw [hmem (fun k => k ∉ f.params ++ f.kwonly)]; exact h3),
        if_neg (by rw [hKk]; exact not_not.2 h4)]
      congr 2
      · congr 1
        rw [← hAl]
        exact zip_take _ _
      · simp; omega

/-- **C32** two calls that bind the same values, by position or by keyword, deliver the same values. -/
theorem C32_calls {f : Sig} {args args' : List Val} {kwargs kwargs' b b' c : List (String × Val)}
    (h : bindCall f args kwargs = .ok (b, [])) (h' : bindCall f args' kwargs' = .ok (b', []))
    (hp : b.Perm b') (hc : callWrapped f args kwargs = .ok (c, [])) :
    ∃ c', callWrapped f args' kwargs' = .ok (c', []) ∧ c.Perm c' := by
  rw [C32_style f args kwargs b h] at hc
  rw [C32_style f args' kwargs' b' h']
  cases hb : convertAll b with
  | error e => rw [hb] at hc; cases hc
  | ok x =>
    rw [hb] at hc
    simp only [Except.map, Except.ok.injEq, Prod.mk.injEq, and_true] at hc
    subst hc
    unfold convertAll at hb ⊢
    rw [mapM_ok_iff] at hb
    have hq := hp.map fun p : String × Val => (do
      let v ← deliver p.1 p.2
      pure (p.1, v) : Res (String × Val))
    rw [hb] at hq
    obtain ⟨y, hy, hxy⟩ : ∃ y : List (String × Val), (b'.map fun p : String × Val => (do
      let v ← deliver p.1 p.2
      pure (p.1, v) : Res (String × Val))) = y.map .ok ∧ x.Perm y := by
      refine ⟨_, ok_filter (fun e he => ?_), ?_⟩
      · obtain ⟨z, -, rfl⟩ := List.mem_map.1 (hq.symm.subset he)
        exact ⟨z, rfl⟩
      · have := hq.filterMap Except.toOption
        rw [List.filterMap_map] at this
        simpa [Function.comp_def, Except.toOption] using this
    rw [(mapM_ok_iff _ _ _).2 hy]
    exact ⟨y, rfl, hxy⟩

/-- **C32** surplus positional arguments are dropped before the call, for every function: a decorated
function that takes `n` arguments accepts more, where the plain function raises `TypeError`. -/
theorem C32_surplus (f : Sig) (args : List Val) (kwargs : List (String × Val)) :
    callWrapped f args kwargs = callWrapped f (args.take f.params.length) kwargs ∧
    (f.varargs = false → f.params.length < args.length → bindCall f args kwargs = .error .typeError) := by
  constructor
  · unfold callWrapped
    rw [← take_zip]
  · intro h1 h2
    unfold bindCall
    rw [if_pos ⟨h2, h1⟩]

/-- **C32** "A call has the effect of the plain call on the converted values" is false: a call with one
argument too many is refused by the plain function and accepted by the decorated one. -/
theorem C32_surplus_false : ∃ (f : Sig) (args : List Val) (c : List (String × Val)),
    bindCall f args [] = .error .typeError ∧ callWrapped f args [] = .ok (c, []) := by
  refine ⟨{ params := ["L"] }, [.num 1, .num 2], [("L", .num 1)],
    (C32_surplus { params := ["L"] } [.num 1, .num 2] []).2 rfl (by simp), ?_⟩
  rw [(C32_surplus { params := ["L"] } [.num 1, .num 2] []).1]
  have hb : bindCall { params := ["L"] } [.num 1] [] = .ok ([("L", .num 1)], []) := by
    simp [bindCall]
  show callWrapped { params := ["L"] } [.num 1] [] = _
  rw [C32_style _ _ _ _ hb]
  unfold convertAll
  simp [(C32_plain "L" 1 [] "").1, bind, Except.bind, pure, Except.pure, Except.map]

/-! ### The table -/

/-- **C32** the library units are coherent: with the units of `units`, the terms of
`M q'' + C q' + K q = F` are forces, stresses are forces per area, inertias and unbalances are masses
times lengths. -/
theorem C32_coherent :
    (∀ i ∈ ["x", "y", "z"], ∀ j ∈ ["x", "y", "z"], ∃ k c m f l,
      unitOf ("k" ++ i ++ j) = some k ∧ unitOf ("c" ++ i ++ j) = some c ∧ unitOf ("m" ++ i ++ j) = some m ∧
      unitOf "force" = some f ∧ unitOf "L" = some l ∧ f = Dim.mul k l ∧ c = Dim.mul k second ∧
      m = Dim.mul c second ∧ unitOf "stiffness" = some k ∧ unitOf "m" = some m) ∧
    (∃ E f a l m I u rho v t V fr h p,
      unitOf "E" = some E ∧ unitOf "G_s" = some E ∧ unitOf "pressure" = some E ∧
      unitOf "force" = some f ∧ unitOf "load" = some f ∧ unitOf "weight" = some f ∧
      unitOf "area" = some a ∧ unitOf "L" = some l ∧ unitOf "m" = some m ∧ unitOf "Ip" = some I ∧
      unitOf "Id" = some I ∧ unitOf "unbalance_magnitude" = some u ∧ unitOf "rho" = some rho ∧
      unitOf "viscosity" = some v ∧ unitOf "torque" = some t ∧ unitOf "velocity" = some V ∧
      unitOf "speed" = some fr ∧ unitOf "frequency" = some fr ∧ unitOf "head" = some h ∧
      unitOf "power" = some p ∧
      f = Dim.mul E a ∧ a = Dim.mul l l ∧ I = Dim.mul m a ∧ u = Dim.mul m l ∧ m = Dim.mul rho (Dim.mul a l) ∧
      v = Dim.mul E second ∧ t = Dim.mul f l ∧ l = Dim.mul V second ∧ Dim.mul fr second = {} ∧
      Dim.mul h m = t ∧ Dim.mul p second = t) := by
  constructor
  · intro i hi j hj
    simp only [List.mem_cons, List.not_mem_nil, or_false] at hi hj
    rcases hi with rfl | rfl | rfl <;> rcases hj with rfl | rfl | rfl <;>
      exact ⟨_, _, _, _, _, rfl, rfl, rfl, rfl, rfl, rfl, rfl, rfl, rfl, rfl⟩
  exact ⟨_, _, _, _, _, _, _, _, _, _, _, _, _, _, rfl, rfl, rfl, rfl, rfl, rfl, rfl, rfl, rfl, rfl, rfl, rfl,
    rfl, rfl, rfl, rfl, rfl, rfl, rfl, rfl, rfl, rfl, rfl, rfl, rfl, rfl, rfl, rfl, rfl, rfl, rfl⟩

/-! ### Non-vacuity -/

/-- An argument that is listed, one with a listed part, one that contains `flow_v`, one with a part
`units`, one without unit. -/
example : Converted "L" ∧ HasUnit "L" { m := 1 } ∧ Converted "inlet_pressure" ∧
    HasUnit "inlet_pressure" { m := -1, kg := 1, s := -2 } ∧ HasUnit "inlet_flow_v" { m := 3, s := -1 } ∧
    HasUnit "unbalance_magnitude" { m := 1, kg := 1 } ∧ ¬ Converted "speed_units" ∧
    ∀ d, ¬ HasUnit "n_link" d := by
  simp only [converted_iff, hasUnit_iff]
  refine ⟨by decide, by decide, by decide, by decide, by decide, by decide, by decide, ?_⟩
  have : (names "n_link").findSome? unitOf = none := by decide
  simp [this]

/-- An inch. -/
noncomputable def inch : PintUnit := { dim := { m := 1 }, scale := 0.0254 }

/-- Half an inch given by position and by keyword. -/
example : callWrapped { params := ["L", "n"] } [.qty (.scalar 0.5 inch)] [("n", .num 3)] =
      .ok ([("L", .num (inSI inch 0.5)), ("n", .num 3)], []) ∧
    bindCall { params := ["L", "n"] } [.qty (.scalar 0.5 inch)] [("n", .num 3)] =
      .ok ([("L", .qty (.scalar 0.5 inch)), ("n", .num 3)], []) := by
  have hc : Converted "L" := converted_iff.2 (by decide)
  have hu : HasUnit "L" { m := 1 } := hasUnit_iff.2 (by decide)
  have hb : bindCall { params := ["L", "n"] } [.qty (.scalar 0.5 inch)] [("n", .num 3)] =
      .ok ([("L", .qty (.scalar 0.5 inch)), ("n", .num 3)], []) := by
    simp [bindCall]
  refine ⟨?_, hb⟩
  rw [C32_style _ _ _ _ hb]
  unfold convertAll
  simp [(C32_plain "n" 3 [] "").1, ((C32_quantity hc hu inch 0.5 []).1 rfl).1, bind, Except.bind, pure,
    Except.pure, Except.map]

end Ross.Props
