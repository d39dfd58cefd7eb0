import Verif.Lemmas.StaticAux

/-! # The equations solved by the static analysis -/

namespace Ross.StaticLemmas

open Ross Ross.Spec Ross.BearingLemmas Ross.Rotor Ross.RotorLemmas Ross.ShaftLemmas Ross.Props
  Ross.Shaft6Lemmas Ross.AssemblyLemmas Matrix

variable {pd : Pandas} {a : RotorArgs} {r : Rotor} {fuel : ℕ}

theorem run_ok (h : init pd fuel a = some (.ok r)) {pd' : Pandas} {sp : Scipy} {fuel' : ℕ}
    {st : StaticResults} (hr : r.run_static pd' sp fuel' = some (.ok st)) :
    ∃ a₀ a₁ x x1, init pd' fuel' a₀ = some (.ok x) ∧ init pd' fuel' a₁ = some (.ok x1) ∧
      AuxOf r x 1e20 ∧ AuxOf r x1 0 ∧ r.staticFrom x x1 = .ok st ∧
      a₀ = r.auxArgs ((carrying r).map (auxBrg r.nodes_pos.length 1e20)) := by
  unfold Rotor.run_static at hr
  by_cases hs : r.bearings.all BrgEl.isSeal = true
  · rw [if_pos hs] at hr; cases hr
  rw [if_neg hs, auxBearings_eq, auxBearings_eq] at hr
  dsimp only at hr
  cases h1 : init pd' fuel' (r.auxArgs ((carrying r).map (auxBrg r.nodes_pos.length 1e20))) with
  | none => rw [h1] at hr; cases hr
  | some y =>
    rw [h1] at hr
    cases y with
    | error e => cases hr
    | ok x =>
      cases h2 : init pd' fuel' (r.auxArgs ((carrying r).map (auxBrg r.nodes_pos.length 0))) with
      | none => rw [h2] at hr; cases hr
      | some y1 =>
        rw [h2] at hr
        cases y1 with
        | error e => cases hr
        | ok x1 =>
          exact ⟨_, _, x, x1, h1, h2, aux_facts h h1, aux_facts h h2, Option.some.inj hr, rfl⟩

/-- The acceleration used by the code. -/
noncomputable def gAcc : ℝ := -9.8065

/-- The vector `gravity`. -/
noncomputable def gravityOf (n : ℕ) : List ℝ :=
  (List.range n).map fun (i : ℕ) => if i % 4 = 1 then gAcc else 0

/-- The intermediate results of `run_static`. -/
structure Steps (r x x1 : Rotor) (st : StaticResults) where
  M : Matrix (Fin x.ndof) (Fin x.ndof) ℝ
  K : Matrix (Fin x.ndof) (Fin x.ndof) ℝ
  K1 : Matrix (Fin x1.ndof) (Fin x1.ndof) ℝ
  disp : List ℝ
  loads : ShaftLoads
  reaction : List ℝ
  bn : Dict ℕ ℝ × Dict (Option String) ℝ
  nf : List ℝ
  hM : x.M (some 0) = .ok M
  hK : x.K 0 = .ok K
  hK1 : x1.K 0 = .ok K1
  hdisp : (red r.number_dof ⟨x.ndof, K⟩).solve
    ((red r.number_dof ⟨x.ndof, M⟩).mulVec (gravityOf (red r.number_dof ⟨x.ndof, M⟩).1)) = .ok disp
  hloads : r.shaft.foldlM (addShaftLoad gAcc r.nodes_pos)
    ⟨List.replicate (r.nodes_pos.length - 1) (0, 0), List.replicate (r.nodes_pos.length - 1) (0, 0),
      List.replicate (r.nodes_pos.length - 1 + 1) 0⟩ = .ok loads
  hreaction : npSub (from1by4 ((red r.number_dof ⟨x1.ndof, K1⟩).mulVec disp))
    (from1by4 ((red r.number_dof ⟨x.ndof, M⟩).mulVec
      (gravityOf (red r.number_dof ⟨x.ndof, M⟩).1))) = .ok reaction
  hbn : x.bearings.foldlM (fun (d : Dict ℕ ℝ × Dict (Option String) ℝ) b =>
    match reaction[b.n]? with
    | some y => (.ok (Dict.set d.1 b.n y, Dict.set d.2 b.tag y) :
      Res (Dict ℕ ℝ × Dict (Option String) ℝ))
    | none => .error .indexError) ([], []) = .ok bn
  hnf : npSub (from1by4 (((red r.number_dof ⟨x1.ndof, K1⟩).mulVec disp).take
    (4 * r.nodes_pos.length))) loads.nodal = .ok nf
  hst : st =
    let elm_weight := loads.elm_weight.modify (r.nodes_pos.length - 1 - 1) fun w => (w.1, 0)
    let vx := (shear (elmForces elm_weight nf)).map fun v => (-v.1, -v.2)
    { displacement_y := from1by4 disp
      vx := vx
      mx := momentFrom 0
        (List.zipWith (fun v x => 0.5 * (v.1 + v.2) * (x.2 - x.1)) vx loads.vx_axis)
      vx_axis := loads.vx_axis
      w_shaft := (r.shaft.map fun e => e.s.m).sum * (-gAcc)
      disk_forces_nodal := x.disks.foldl (fun d e => Dict.set d e.d.n (-e.d.m * gAcc)) []
      disk_forces_tag := x.disks.foldl (fun d e => Dict.set d e.d.tag (-e.d.m * gAcc)) []
      bearing_forces_nodal := bn.1
      bearing_forces_tag := bn.2 }

theorem steps {x x1 : Rotor} {st : StaticResults} (hs : r.staticFrom x x1 = .ok st) :
    Nonempty (Steps r x x1 st) := by
  unfold Rotor.staticFrom at hs
  obtain ⟨M, hM, hs⟩ := bind_ok.1 hs
  obtain ⟨K, hK, hs⟩ := bind_ok.1 hs
  obtain ⟨K1, hK1, hs⟩ := bind_ok.1 hs
  dsimp only at hs
  obtain ⟨disp, hdisp, hs⟩ := bind_ok.1 hs
  obtain ⟨loads, hloads, hs⟩ := bind_ok.1 hs
  obtain ⟨reaction, hreaction, hs⟩ := bind_ok.1 hs
  obtain ⟨bn, hbn, hs⟩ := bind_ok.1 hs
  obtain ⟨nf, hnf, hs⟩ := bind_ok.1 hs
  exact ⟨⟨M, K, K1, disp, loads, reaction, bn, nf, hM, hK, hK1, hdisp, hloads, hreaction, hbn, hnf,
    (Except.ok.inj hs).symm⟩⟩

/-! ### Virtual work -/

/-- Relative motion of two nodes, or of a node and the ground. -/
def relOf (dir : String) (n : ℕ) (l : Option ℕ) (u : String × ℕ → ℝ) : ℝ :=
  u (dir, n) - match l with
    | none => 0
    | some m => u (dir, m)

/-- The work of the elastic forces of the shaft. -/
noncomputable def shaftWork (r : Rotor) (u v : String × ℕ → ℝ) : ℝ :=
  (r.shaft.map fun e => nodeVec u (nodeOf e) ⬝ᵥ (e.s.K *ᵥ nodeVec v (nodeOf e))).sum

/-- The work of the masses in a unit vertical acceleration. -/
noncomputable def weightWork (r : Rotor) (u : String × ℕ → ℝ) : ℝ :=
  (r.shaft.map fun e => nodeVec u (nodeOf e) ⬝ᵥ (e.s.M *ᵥ eY)).sum +
    (r.disks.map fun e => e.d.m * u ("y", e.d.n)).sum

/-- The work of the bearings of unit stiffness. -/
noncomputable def brgWork (r : Rotor) (u v : String × ℕ → ℝ) : ℝ :=
  ((carrying r).map fun b =>
    relOf "x" b.n (linkIn r.nodes_pos.length b) u * relOf "x" b.n (linkIn r.nodes_pos.length b) v +
    relOf "y" b.n (linkIn r.nodes_pos.length b) u * relOf "y" b.n (linkIn r.nodes_pos.length b) v).sum

theorem aux_K {x : Rotor} {k : ℝ} {pd' : Pandas} {fuel' : ℕ} {a' : RotorArgs}
    (hi : init pd' fuel' a' = some (.ok x)) (hx : AuxOf r x k)
    {B : Matrix (Fin x.ndof) (Fin x.ndof) ℝ} (hB : x.K 0 = .ok B) (w w' : ℕ → ℝ) :
    (red r.number_dof ⟨x.ndof, B⟩).1 = 4 * (shaftEnd r + 1) ∧
    form (red r.number_dof ⟨x.ndof, B⟩) w w' =
      shaftWork r (U w) (U w') + k * brgWork r (U w) (U w') := by
  obtain ⟨X, hX⟩ := describes_exists hi (U w)
  obtain ⟨Y, hY⟩ := describes_exists hi (U w')
  obtain ⟨h1, h2⟩ := red_form hi hx.pms B hX hY
  rw [hx.nd] at h1 h2
  rw [hx.last] at h1
  refine ⟨h1, ?_⟩
  rw [h2, K_form hi hx.pms hx.iso hB hX hY (U_flat _) (U_flat _)]
  congr 1
  · exact (hx.shaft.map _).sum_eq
  · congr 1
    exact aux_sum hx fun n l => relOf "x" n l (U w) * relOf "x" n l (U w') +
      relOf "y" n l (U w) * relOf "y" n l (U w')

theorem bilin_smul {n : ℕ} (A : Matrix (Fin n) (Fin n) ℝ) (x y : ℕ → ℝ) (c : ℝ) :
    bilin A x (fun i => c * y i) = c * bilin A x y := by
  unfold bilin
  simp only [Finset.mul_sum]
  exact Finset.sum_congr rfl fun i _ => Finset.sum_congr rfl fun j _ => by ring

theorem aux_M {x : Rotor} {k : ℝ} {pd' : Pandas} {fuel' : ℕ} {a' : RotorArgs}
    (hi : init pd' fuel' a' = some (.ok x)) (hx : AuxOf r x k)
    {B : Matrix (Fin x.ndof) (Fin x.ndof) ℝ} (hB : x.M (some 0) = .ok B) (w : ℕ → ℝ) :
    (red r.number_dof ⟨x.ndof, B⟩).1 = 4 * (shaftEnd r + 1) ∧
    form (red r.number_dof ⟨x.ndof, B⟩) w
        (fun q => (gravityOf (red r.number_dof ⟨x.ndof, B⟩).1).getD q 0) =
      gAcc * weightWork r (U w) := by
  obtain ⟨X, hX⟩ := describes_exists hi (U w)
  obtain ⟨Y, hY⟩ := describes_exists hi (translation "y")
  have hY' : Describes x (fun i => gAcc * Y i) (U fun q => if q % 4 = 1 then gAcc else 0) := by
    intro key hk
    simp only
    rw [hY key hk]
    obtain ⟨l, n⟩ := key
    unfold U translation
    dsimp only
    rw [if_neg (by omega : ¬ 4 * n % 4 = 1), if_pos (by omega : (4 * n + 1) % 4 = 1),
      if_neg (by omega : ¬ (4 * n + 2) % 4 = 1), if_neg (by omega : ¬ (4 * n + 3) % 4 = 1)]
    split_ifs <;> simp_all
  obtain ⟨h1, h2⟩ := red_form hi hx.pms B hX hY'
  rw [hx.nd] at h1 h2
  rw [hx.last] at h1
  refine ⟨h1, ?_⟩
  have e : form (red r.number_dof ⟨x.ndof, B⟩) w
        (fun q => (gravityOf (red r.number_dof ⟨x.ndof, B⟩).1).getD q 0) =
      form (red r.number_dof ⟨x.ndof, B⟩) w (fun q => if q % 4 = 1 then gAcc else 0) := by
    unfold form
    refine Finset.sum_congr rfl fun p _ => Finset.sum_congr rfl fun q hq => ?_
    congr 1
    show (gravityOf _).getD q 0 = if q % 4 = 1 then gAcc else 0
    rw [gravityOf, List.getD_eq_getElem?_getD,
      List.getElem?_eq_getElem (by simpa using hq), Option.getD_some]
    simp
  rw [e, h2, bilin_smul, M_form hi hx.pms hx.iso hB hX hY (U_flat _), weightWork,
    (hx.shaft.map _).sum_eq, hx.disks]

/-! ### Equilibrium -/

/-- The displacement found by the solver. -/
noncomputable def Steps.u {x x1 : Rotor} {st : StaticResults} (s : Steps r x x1 st) (p : ℕ) : ℝ :=
  s.disp.getD p 0

/-- A vertical motion. -/
noncomputable def vertical (c : ℕ → ℝ) (p : ℕ) : ℝ := if p % 4 = 1 then c (p / 4) else 0

theorem U_vertical (c : ℕ → ℝ) (n : ℕ) : U (vertical c) ("y", n) = c n ∧
    U (vertical c) ("x", n) = 0 ∧ U (vertical c) ("alpha", n) = 0 ∧
    U (vertical c) ("beta", n) = 0 := by
  simp only [U, vertical]
  refine ⟨?_, ?_, ?_, ?_⟩
  · simp; rw [show (4 * n + 1) / 4 = n by omega]
  · simp
  · simp
  · simp

/-- The equations of the static analysis, tested with arbitrary motions. -/
structure Laws (r : Rotor) (st : StaticResults) (u : ℕ → ℝ) (R : ℕ → ℝ) (F : ℕ → ℝ) : Prop where
  /-- Elastic forces and weight are balanced by the bearings. -/
  eq : ∀ w, shaftWork r (U w) (U u) - gAcc * weightWork r (U w) =
    -1e20 * brgWork r (U w) (U u)
  /-- The reactions are the forces of the bearings. -/
  react : ∀ c : ℕ → ℝ, ∑ i ∈ Finset.range (shaftEnd r + 1), c i * R i =
    -1e20 * brgWork r (U (vertical c)) (U u)
  /-- The elastic forces. -/
  elastic : ∀ c : ℕ → ℝ, ∑ i ∈ Finset.range (shaftEnd r + 1), c i * F i =
    shaftWork r (U (vertical c)) (U u)

theorem laws {x x1 : Rotor} {st : StaticResults} {pd' : Pandas} {fuel' : ℕ} {a₀ a₁ : RotorArgs}
    (hi : init pd' fuel' a₀ = some (.ok x)) (hi1 : init pd' fuel' a₁ = some (.ok x1))
    (hx : AuxOf r x 1e20) (hx1 : AuxOf r x1 0) (s : Steps r x x1 st) :
    Laws r st s.u (fun i => s.reaction.getD i 0)
        (fun i => ((red r.number_dof ⟨x1.ndof, s.K1⟩).mulVec s.disp).getD (4 * i + 1) 0) ∧
      s.reaction.length = shaftEnd r + 1 ∧ s.disp.length = 4 * (shaftEnd r + 1) ∧
      ((red r.number_dof ⟨x1.ndof, s.K1⟩).mulVec s.disp).length = 4 * (shaftEnd r + 1) := by
  have hM := aux_M hi hx s.hM
  have hK := aux_K hi hx s.hK
  have hK1 := aux_K hi1 hx1 s.hK1
  have lM := (hM 0).1
  have lK := (hK 0 0).1
  have lK1 := (hK1 0 0).1
  obtain ⟨ld, hd⟩ := solve_ok s.hdisp
  obtain ⟨-, lr, hr⟩ := npSub_ok s.hreaction
  rw [from1by4_length (m := shaftEnd r + 1) (by rw [mulVec_length, lK1])] at lr
  have hsum : ∀ w : ℕ → ℝ, form (red r.number_dof ⟨x.ndof, s.K⟩) w s.u = gAcc * weightWork r (U w) := by
    intro w
    rw [← (hM w).2, ← sum_mulVec]
    show form _ w (fun q => s.disp.getD q 0) = _
    rw [← sum_mulVec, lK, lM]
    refine Finset.sum_congr rfl fun p hp => ?_
    rw [hd p (by rw [lK]; exact Finset.mem_range.1 hp)]
    rw [lM]
  have hform : ∀ w, form (red r.number_dof ⟨x1.ndof, s.K1⟩) w s.u = shaftWork r (U w) (U s.u) := by
    intro w; rw [(hK1 w s.u).2]; ring
  have heq : ∀ w, shaftWork r (U w) (U s.u) - gAcc * weightWork r (U w) =
      -1e20 * brgWork r (U w) (U s.u) := by
    intro w
    have h1 := hsum w
    rw [(hK w s.u).2] at h1
    linarith
  have hel : ∀ c : ℕ → ℝ, ∑ i ∈ Finset.range (shaftEnd r + 1), c i *
      ((red r.number_dof ⟨x1.ndof, s.K1⟩).mulVec s.disp).getD (4 * i + 1) 0 =
      shaftWork r (U (vertical c)) (U s.u) := by
    intro c
    rw [← hform, ← sum_vertical (shaftEnd r + 1) c
      (fun p => ((red r.number_dof ⟨x1.ndof, s.K1⟩).mulVec s.disp).getD p 0)]
    show _ = form _ (vertical c) (fun q => s.disp.getD q 0)
    rw [← sum_mulVec, lK1]
    rfl
  refine ⟨⟨heq, fun c => ?_, hel⟩, lr, by rw [ld, lK], by rw [mulVec_length, lK1]⟩
  have h1 := hel c
  have h2 : ∑ i ∈ Finset.range (shaftEnd r + 1), c i *
      ((red r.number_dof ⟨x.ndof, s.M⟩).mulVec
        (gravityOf (red r.number_dof ⟨x.ndof, s.M⟩).1)).getD (4 * i + 1) 0 =
      gAcc * weightWork r (U (vertical c)) := by
    rw [← (hM _).2, ← sum_vertical (shaftEnd r + 1) c
      (fun p => ((red r.number_dof ⟨x.ndof, s.M⟩).mulVec
        (gravityOf (red r.number_dof ⟨x.ndof, s.M⟩).1)).getD p 0)]
    rw [← sum_mulVec, lM]
    rfl
  rw [← heq, ← h1, ← h2, ← Finset.sum_sub_distrib]
  refine Finset.sum_congr rfl fun i hi' => ?_
  have hi'' := Finset.mem_range.1 hi'
  rw [hr i, from1by4_getD (m := shaftEnd r + 1) (by rw [mulVec_length, lK1]) hi'',
    from1by4_getD (m := shaftEnd r + 1) (by rw [mulVec_length, lM]) hi'']
  ring

end Ross.StaticLemmas
