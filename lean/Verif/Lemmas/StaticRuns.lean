import Verif.Lemmas.StaticCore
import Verif.Props.Stability

/-! # The static analysis succeeds -/

namespace Ross.StaticLemmas

open Ross Ross.Spec Ross.BearingLemmas Ross.Rotor Ross.RotorLemmas Ross.ShaftLemmas Ross.Props
  Ross.Shaft6Lemmas Ross.AssemblyLemmas Matrix

variable {pd : Pandas} {a : RotorArgs} {r : Rotor} {fuel : ℕ}

theorem toString_inj {i j : ℕ} (h : toString i = toString j) : i = j := by
  rw [Nat.toString_eq_ofList_toDigits, Nat.toString_eq_ofList_toDigits] at h
  have h1 := congrArg String.toList h
  simp only [String.toList_ofList] at h1
  have h2 := congrArg (fun l => Nat.ofDigitChars 10 l 0) h1
  simpa only [Nat.ofDigitChars_ten_toDigits] using h2

theorem mapIdx_map {α β : Type} (l : List α) (f : ℕ → α → β) (g : α → β)
    (h : ∀ i (hi : i < l.length), f i l[i] = g l[i]) : l.mapIdx f = l.map g := by
  apply List.ext_getElem
  · simp
  · intro i h1 h2
    have hi : i < l.length := by simpa using h1
    simp [h i hi]

theorem auxBrg_seal (n : ℕ) (k : ℝ) (b : BrgEl) : (auxBrg n k b).isSeal = false := by
  cases b <;> rfl

theorem auxBrg_tag (n : ℕ) (k : ℝ) (b : BrgEl) : (auxBrg n k b).tag = none := by
  cases b <;> rfl

theorem aux_tags (h : init pd fuel a = some (.ok r)) (ht : TagsFree r) (k : ℝ) :
    (allTags (r.auxArgs ((carrying r).map (auxBrg r.nodes_pos.length k)))).Nodup := by
  have hb := init_ok h
  set bs := (carrying r).map (auxBrg r.nodes_pos.length k) with hbs
  have hnd := hb.tags
  rw [show (parts a).elements = r.elements by
    rw [elements_eq' hb, hb.shaft, hb.disks, hb.bearings, hb.pms]; rfl, elements_eq' hb] at hnd
  simp only [List.map_append, List.map_map] at hnd
  have h12 := (List.nodup_append.1 (List.nodup_append.1 hnd).1).1
  have es : ((shaftList (r.auxArgs bs)).mapIdx fun i e => tagOr "ShaftElement " i e.s.tag).map some =
      r.shaft.map fun e => e.s.tag := by
    rw [show shaftList (r.auxArgs bs) = r.shaft from flatten_els _, map_mapIdx']
    refine mapIdx_map _ _ _ fun i hi => ?_
    obtain ⟨-, h2⟩ := shaft_given h (List.getElem_mem hi)
    obtain ⟨t, ht⟩ := Option.isSome_iff_exists.1 h2
    rw [ht]; rfl
  have ed : ((r.auxArgs bs).disks.mapIdx fun i e => tagOr "Disk " i e.d.tag).map some =
      r.disks.map fun e => e.d.tag := by
    show (r.disks.mapIdx _).map some = _
    rw [map_mapIdx']
    refine mapIdx_map _ _ _ fun i hi => ?_
    have h2 := (C21_tags h).2.2.1 (Elm.disk r.disks[i])
      ((mem_elements hb _).2 (.inr (.inl ⟨_, List.getElem_mem hi, rfl⟩)))
    obtain ⟨t, ht⟩ := Option.isSome_iff_exists.1 h2
    have ht' : r.disks[i].d.tag = some t := ht
    rw [ht']; rfl
  have eb : ((r.auxArgs bs).bearings.mapIdx fun i b =>
      tagOr (if b.isSeal then "Seal " else "Bearing ") i b.tag) =
      (List.range bs.length).map fun i => "Bearing " ++ toString i := by
    show bs.mapIdx _ = _
    apply List.ext_getElem
    · simp
    · intro i h1 h2
      simp only [List.getElem_mapIdx, List.getElem_map, List.getElem_range, hbs, auxBrg_seal,
        auxBrg_tag]
      rfl
  unfold allTags
  rw [show (r.auxArgs bs).pms = [] from rfl, List.mapIdx_nil, List.append_nil]
  apply List.Nodup.of_map some
  rw [List.map_append, List.map_append, es, ed, eb]
  refine List.nodup_append.2 ⟨h12, ?_, ?_⟩
  · refine (List.Nodup.map (fun i j hij => ?_) List.nodup_range).map (Option.some_injective _)
    exact toString_inj ((String.append_right_inj _).1 hij)
  · intro x hx y hy
    obtain ⟨z, hz, rfl⟩ := List.mem_map.1 hy
    obtain ⟨i, -, rfl⟩ := List.mem_map.1 hz
    rcases List.mem_append.1 hx with hx | hx
    · obtain ⟨e, he, rfl⟩ := List.mem_map.1 hx
      exact ht.1 e he i
    · obtain ⟨e, he, rfl⟩ := List.mem_map.1 hx
      exact ht.2 e he i

theorem carrying_six (h : init pd fuel a = some (.ok r)) {b : BrgEl} (hb : b ∈ carrying r) :
    BrgSix (decide (r.number_dof = 6)) b := by
  have hb' := init_ok h
  have := brg_six h (b := b) ((mem_elements hb' _).2
    (.inr (.inr (.inl ⟨b, (List.mem_filter.1 hb).1, rfl⟩))))
  cases b with
  | brg _ _ => simp only at this; simp [BrgSix, this]
  | brg6 _ => simp only at this; simp [BrgSix, this]

theorem aux_wf {six : Bool} {N : ℕ} (h : init pd fuel a = some (.ok r)) (hw : WellFormed six N a)
    (ht : TagsFree r) (k : ℝ) :
    WellFormed (decide (r.number_dof = 6)) N
      (r.auxArgs ((carrying r).map (auxBrg r.nodes_pos.length k))) := by
  have hb := init_ok h
  have hctx := ctx_of_wf hw
  have hfull : Full r.shaft N := by rw [hb.shaft]; exact hctx.full
  have hlen : r.nodes_pos.length = N + 1 := by rw [hb.pos, hfull.nodesPos]; simp
  have hsl : shaftList (r.auxArgs ((carrying r).map (auxBrg r.nodes_pos.length k))) = r.shaft :=
    flatten_els _
  constructor
  · exact hw.pos
  · intro j
    have : givenNodes (r.auxArgs ((carrying r).map (auxBrg r.nodes_pos.length k))) =
        r.shaft.map nodeOf := by
      unfold givenNodes
      rw [hsl]
      refine mapIdx_map _ _ _ fun i hi => ?_
      rw [(shaft_given h (List.getElem_mem hi)).1]; rfl
    rw [this, List.mem_map]
    exact hfull.nodes j
  · rw [hsl]; exact hfull.len
  · rw [hsl]; intro e he
    exact shaft_six h ((mem_elements hb _).2 (.inl ⟨e, he, rfl⟩))
  · intro e he
    exact disk_six h ((mem_elements hb _).2 (.inr (.inl ⟨e, he, rfl⟩)))
  · intro b hb'
    obtain ⟨c, hc, rfl⟩ := List.mem_map.1 hb'
    have := carrying_six h hc
    cases c <;> exact this
  · intro e he
    have : e ∈ r.disks := he
    rw [hb.disks] at this
    exact hctx.disk_on e this
  · show (((carrying r).map (auxBrg r.nodes_pos.length k)).map BrgEl.n).Nodup
    rw [List.map_map]
    have e : (BrgEl.n ∘ auxBrg r.nodes_pos.length k) = BrgEl.n := by
      funext b; exact auxBrg_n ..
    rw [e]
    have h1 : (r.bearings.map BrgEl.n).Nodup := by
      rw [hb.bearings, ((parts_br_perm a).map BrgEl.n).nodup_iff, tagBearings_nodes]
      exact hw.brg_nodes
    exact h1.sublist (List.filter_sublist.map _)
  · intro b hb'
    obtain ⟨c, hc, rfl⟩ := List.mem_map.1 hb'
    have := (List.mem_filter.1 hc).2
    simp only [decide_eq_true_eq] at this
    left; rw [auxBrg_n]; omega
  · intro b hb' hlt
    obtain ⟨c, hc, rfl⟩ := List.mem_map.1 hb'
    have := (List.mem_filter.1 hc).2
    simp only [decide_eq_true_eq] at this
    rw [auxBrg_n] at hlt; omega
  · intro b hb' c hc hlt
    obtain ⟨c, hc, rfl⟩ := List.mem_map.1 hb'
    have := (List.mem_filter.1 hc).2
    simp only [decide_eq_true_eq] at this
    rw [auxBrg_n] at hlt; omega
  · intro p hp; cases hp
  · exact aux_tags h ht k

theorem aux_mem {x : Rotor} {k : ℝ} (hx : AuxOf r x k) {b : BrgEl} (hb : b ∈ x.bearings) :
    ∃ c ∈ carrying r, ∃ t, b = (auxBrg r.nodes_pos.length k c).setTag t := by
  have := hx.bearings.mem_iff.1 hb
  unfold tagBearings at this
  obtain ⟨i, hi, rfl⟩ := List.mem_mapIdx.1 this
  obtain ⟨c, hc, he⟩ := List.mem_map.1 (List.getElem_mem hi)
  exact ⟨c, hc, _, by rw [← he]⟩

theorem brg_M_ok {b : BearingElement} {ω x y z w : ℝ} (h1 : b.mxx.eval ω = .ok x)
    (h2 : b.myy.eval ω = .ok y) (h3 : b.mxy.eval ω = .ok z) (h4 : b.myx.eval ω = .ok w) :
    ∃ E, b.M ω = .ok E :=
  ⟨_, bind_ok.2 ⟨_, h1, bind_ok.2 ⟨_, h2, bind_ok.2 ⟨_, h3, bind_ok.2 ⟨_, h4, rfl⟩⟩⟩⟩⟩

theorem brg_K_ok {b : BearingElement} {ω x y z w : ℝ} (h1 : b.kxx.eval ω = .ok x)
    (h2 : b.kyy.eval ω = .ok y) (h3 : b.kxy.eval ω = .ok z) (h4 : b.kyx.eval ω = .ok w) :
    ∃ E, b.K ω = .ok E :=
  ⟨_, bind_ok.2 ⟨_, h1, bind_ok.2 ⟨_, h2, bind_ok.2 ⟨_, h3, bind_ok.2 ⟨_, h4, rfl⟩⟩⟩⟩⟩

theorem brg6_M_ok {b : BearingElement6DoF} {ω x y z w v : ℝ} (h1 : b.base.mxx.eval ω = .ok x)
    (h2 : b.base.myy.eval ω = .ok y) (h3 : b.base.mxy.eval ω = .ok z)
    (h4 : b.base.myx.eval ω = .ok w) (h5 : b.mzz.eval ω = .ok v) :
    ∃ E, b.M ω = .ok E :=
  ⟨_, bind_ok.2 ⟨_, h1, bind_ok.2 ⟨_, h2, bind_ok.2 ⟨_, h3, bind_ok.2 ⟨_, h4,
    bind_ok.2 ⟨_, h5, rfl⟩⟩⟩⟩⟩⟩

theorem brg6_K_ok {b : BearingElement6DoF} {ω x y z w v : ℝ} (h1 : b.base.kxx.eval ω = .ok x)
    (h2 : b.base.kyy.eval ω = .ok y) (h3 : b.base.kxy.eval ω = .ok z)
    (h4 : b.base.kyx.eval ω = .ok w) (h5 : b.kzz.eval ω = .ok v) :
    ∃ E, b.K ω = .ok E :=
  ⟨_, bind_ok.2 ⟨_, h1, bind_ok.2 ⟨_, h2, bind_ok.2 ⟨_, h3, bind_ok.2 ⟨_, h4,
    bind_ok.2 ⟨_, h5, rfl⟩⟩⟩⟩⟩⟩

theorem aux_brg_ok (n : ℕ) (k : ℝ) (c : BrgEl) (t : Option String) :
    (∃ E, Elm.M 0 (.brg ((auxBrg n k c).setTag t)) = .ok E) ∧
      ∃ E, Elm.K 0 (.brg ((auxBrg n k c).setTag t)) = .ok E := by
  cases c with
  | brg sl c =>
    exact ⟨brg_M_ok (const_eval _ _) (const_eval _ _) (const_eval _ _) (const_eval _ _),
      brg_K_ok (const_eval _ _) (const_eval _ _) (const_eval _ _) (const_eval _ _)⟩
  | brg6 c =>
    exact ⟨brg6_M_ok (const_eval _ _) (const_eval _ _) (const_eval _ _) (const_eval _ _)
      (const_eval _ _), brg6_K_ok (const_eval _ _) (const_eval _ _) (const_eval _ _)
      (const_eval _ _) (const_eval _ _)⟩

theorem aux_matrices {x : Rotor} {k : ℝ} {pd' : Pandas} {fuel' : ℕ} {a' : RotorArgs}
    (h : init pd fuel a = some (.ok r)) (hi : init pd' fuel' a' = some (.ok x)) (hx : AuxOf r x k)
    (hlen : r.nodes_pos.length = shaftEnd r + 1)
    (hd : ∀ e ∈ r.disks, e.d.n ≤ shaftEnd r)
    (hl : ∀ b ∈ carrying r, linkIn r.nodes_pos.length b ≠ some b.n) :
    (∃ B, x.M (some 0) = .ok B) ∧ ∃ B, x.K 0 = .ok B := by
  have hb := init_ok h
  have hbx := init_ok hi
  have hfit := fits_of_nil hbx hx.pms
  have hall : ∀ e ∈ x.elements, InRange x e ∧ NotSelfLinked e ∧ (∃ E, e.M 0 = .ok E) ∧
      ∃ E, e.K 0 = .ok E := by
    intro e he
    unfold InRange
    rw [hx.last, hx.pms, hx.nd]
    rcases (mem_elements hbx e).1 he with ⟨s, hs, rfl⟩ | ⟨s, hs, rfl⟩ | ⟨s, hs, rfl⟩ | ⟨p, hp, h⟩
    · have hs' := hx.shaft.mem_iff.1 hs
      have hn := (shaft_given h hs').1
      have hle : nodeOf s + 1 ≤ shaftEnd r := by
        have hlast : shaftEnd r = lastNode r.shaft + 1 := by rw [shaftEnd_last h]; rfl
        have := node_le_last hb hs'
        omega
      refine ⟨fun key hkey => ?_, trivial, ?_, ?_⟩
      · simp only [attach, Elm.n, hn, Option.getD_some, dofsAt, List.mem_append, List.mem_map] at hkey
        rcases hkey with ⟨_, _, rfl⟩ | ⟨_, _, rfl⟩ <;> simp <;> omega
      · obtain ⟨six, s⟩ := s; cases six <;> exact ⟨_, rfl⟩
      · obtain ⟨six, s⟩ := s; cases six <;> exact ⟨_, rfl⟩
    · have hs' : s ∈ r.disks := hx.disks ▸ hs
      have := hd s hs'
      refine ⟨fun key hkey => ?_, trivial, ?_, ?_⟩
      · simp only [attach, Elm.n, Option.getD_some, dofsAt, List.mem_map] at hkey
        obtain ⟨_, _, rfl⟩ := hkey
        simp; omega
      · obtain ⟨six, s⟩ := s; cases six <;> exact ⟨_, rfl⟩
      · obtain ⟨six, s⟩ := s; cases six <;> exact ⟨_, rfl⟩
    · obtain ⟨c, hc, t, rfl⟩ := aux_mem hx hs
      have hcn := (List.mem_filter.1 hc).2
      simp only [decide_eq_true_eq, hlen] at hcn
      have hlink := hl c hc
      have hlr : ∀ l, linkIn r.nodes_pos.length c = some l → l ≤ shaftEnd r := by
        intro l hl'
        unfold linkIn at hl'
        cases hcl : c.n_link with
        | none => rw [hcl] at hl'; cases hl'
        | some m =>
          rw [hcl] at hl'
          simp only at hl'
          split_ifs at hl' with hm
          cases hl'; omega
      refine ⟨fun key hkey => ?_, ?_, ?_, ?_⟩
      · simp only [attach, Elm.n, setTag_n, setTag_link, auxBrg_n, auxBrg_link, Option.getD_some] at hkey
        cases hcl : linkIn r.nodes_pos.length c with
        | none =>
          rw [hcl] at hkey
          simp only [dofsAt, List.mem_map] at hkey
          obtain ⟨_, _, rfl⟩ := hkey
          simp; omega
        | some l =>
          have := hlr l hcl
          rw [hcl] at hkey
          simp only at hkey
          split_ifs at hkey
          · simp only [dofsAt, List.mem_map] at hkey
            obtain ⟨_, _, rfl⟩ := hkey
            simp; omega
          · simp only [dofsAt, List.mem_append, List.mem_map] at hkey
            rcases hkey with ⟨_, _, rfl⟩ | ⟨_, _, rfl⟩ <;> simp <;> omega
      · simp only [NotSelfLinked, setTag_n, setTag_link, auxBrg_n, auxBrg_link]
        exact hlink
      · exact (aux_brg_ok ..).1
      · exact (aux_brg_ok ..).2
    · rw [hx.pms] at hp; cases hp
  obtain ⟨i1, i2, -, -⟩ := C18_assembles_iff hi hfit 0
  exact ⟨i1.2 fun e he => ⟨(hall e he).1, (hall e he).2.1, (hall e he).2.2.1⟩,
    i2.2 fun e he => ⟨(hall e he).1, (hall e he).2.1, (hall e he).2.2.2⟩⟩

/-! ### The supported shaft resists every motion -/

theorem nonpos_of_sum {l : List ℝ} (h : ∀ x ∈ l, 0 ≤ x) (h0 : l.sum ≤ 0) {x : ℝ} (hx : x ∈ l) :
    x ≤ 0 := (List.single_le_sum h _ hx).trans h0

theorem resists (hs : ∀ e ∈ r.shaft, Sound e) {N : ℕ}
    (hfill : ∀ k < N, ∃ e ∈ r.shaft, nodeOf e = k) {b c : BrgEl} (hb : b ∈ carrying r)
    (hc : c ∈ carrying r) (hlb : linkIn r.nodes_pos.length b = none)
    (hlc : linkIn r.nodes_pos.length c = none) (hbc : b.n < c.n) (hcN : c.n ≤ N) {w : ℕ → ℝ}
    (h0 : shaftWork r (U w) (U w) + 1e20 * brgWork r (U w) (U w) ≤ 0) :
    ∀ p < 4 * (N + 1), w p = 0 := by
  have hsh : ∀ x ∈ r.shaft.map fun e => nodeVec (U w) (nodeOf e) ⬝ᵥ (e.s.K *ᵥ nodeVec (U w) (nodeOf e)),
      0 ≤ x := by
    intro x hx
    obtain ⟨e, he, rfl⟩ := List.mem_map.1 hx
    obtain ⟨h1, h2, h3, h4⟩ := hs e he
    exact C07_stiffness_nonneg e.s h1 h2 h3 h4 _
  have hbr : ∀ x ∈ (carrying r).map fun b =>
      relOf "x" b.n (linkIn r.nodes_pos.length b) (U w) * relOf "x" b.n (linkIn r.nodes_pos.length b) (U w) +
      relOf "y" b.n (linkIn r.nodes_pos.length b) (U w) * relOf "y" b.n (linkIn r.nodes_pos.length b) (U w),
      0 ≤ x := by
    intro x hx
    obtain ⟨e, he, rfl⟩ := List.mem_map.1 hx
    exact add_nonneg (mul_self_nonneg _) (mul_self_nonneg _)
  have s1 : 0 ≤ shaftWork r (U w) (U w) := List.sum_nonneg hsh
  have s2 : 0 ≤ brgWork r (U w) (U w) := List.sum_nonneg hbr
  have s3 : shaftWork r (U w) (U w) ≤ 0 := by nlinarith
  have s4 : brgWork r (U w) (U w) ≤ 0 := by nlinarith
  have hU : ∀ n, U w ("x", n) = w (4 * n) ∧ U w ("y", n) = w (4 * n + 1) ∧
      U w ("alpha", n) = w (4 * n + 2) ∧ U w ("beta", n) = w (4 * n + 3) := by
    intro n; simp [U]
  have hrig : ∀ k < N, ∃ L, 0 < L ∧ w (4 * (k + 1) + 3) = w (4 * k + 3) ∧
      w (4 * (k + 1)) = w (4 * k) + L * w (4 * k + 3) ∧ w (4 * (k + 1) + 2) = w (4 * k + 2) ∧
      w (4 * (k + 1) + 1) = w (4 * k + 1) - L * w (4 * k + 2) := by
    intro k hk
    obtain ⟨e, he, rfl⟩ := hfill k hk
    obtain ⟨h1, h2, h3, h4⟩ := hs e he
    have := C07_energy_free e.s h1 h2 h3 h4 (nodeVec (U w) (nodeOf e))
      (nonpos_of_sum hsh s3 (List.mem_map.2 ⟨e, he, rfl⟩))
    refine ⟨e.s.L, h2.L_pos, ?_⟩
    obtain ⟨k1, k2, k3, k4⟩ := this
    simp only [nodeVec, (hU _).1, (hU _).2.1, (hU _).2.2.1, (hU _).2.2.2] at k1 k2 k3 k4
    exact ⟨k1, k2, k3, k4⟩
  choose! ℓ hℓ using hrig
  have hall : ∀ j ≤ N, w (4 * j + 3) = w 3 ∧ w (4 * j + 2) = w 2 ∧
      w (4 * j) = w 0 + (∑ i ∈ Finset.range j, ℓ i) * w 3 ∧
      w (4 * j + 1) = w 1 - (∑ i ∈ Finset.range j, ℓ i) * w 2 := by
    intro j
    induction j with
    | zero => intro _; simp
    | succ j ih =>
      intro hj
      obtain ⟨i1, i2, i3, i4⟩ := ih (by omega)
      obtain ⟨-, k1, k2, k3, k4⟩ := hℓ j (by omega)
      rw [Finset.sum_range_succ]
      refine ⟨by rw [k1, i1], by rw [k3, i2], by rw [k2, i3, i1]; ring, by rw [k4, i4, i2]; ring⟩
  have hz : ∀ d ∈ carrying r, linkIn r.nodes_pos.length d = none →
      w (4 * d.n) = 0 ∧ w (4 * d.n + 1) = 0 := by
    intro d hd hl
    have := nonpos_of_sum hbr s4 (List.mem_map.2 ⟨d, hd, rfl⟩)
    simp only [hl, relOf, (hU _).1, (hU _).2.1, sub_zero] at this
    constructor <;> nlinarith [mul_self_nonneg (w (4 * d.n)), mul_self_nonneg (w (4 * d.n + 1))]
  obtain ⟨b1, b2⟩ := hz b hb hlb
  obtain ⟨c1, c2⟩ := hz c hc hlc
  obtain ⟨-, -, b3, b4⟩ := hall b.n (by omega)
  obtain ⟨-, -, c3, c4⟩ := hall c.n hcN
  have hlt : ∑ i ∈ Finset.range b.n, ℓ i < ∑ i ∈ Finset.range c.n, ℓ i := by
    rw [← Finset.sum_range_add_sum_Ico _ hbc.le]
    have : 0 < ∑ i ∈ Finset.Ico b.n c.n, ℓ i :=
      Finset.sum_pos (fun i hi => (hℓ i (by have := Finset.mem_Ico.1 hi; omega)).1)
        ⟨b.n, Finset.mem_Ico.2 ⟨le_rfl, hbc⟩⟩
    linarith
  rw [b1] at b3; rw [b2] at b4; rw [c1] at c3; rw [c2] at c4
  have w3 : w 3 = 0 := by
    have : (∑ i ∈ Finset.range c.n, ℓ i - ∑ i ∈ Finset.range b.n, ℓ i) * w 3 = 0 := by linarith
    exact (mul_eq_zero.1 this).resolve_left (by linarith)
  have w2 : w 2 = 0 := by
    have : (∑ i ∈ Finset.range c.n, ℓ i - ∑ i ∈ Finset.range b.n, ℓ i) * w 2 = 0 := by linarith
    exact (mul_eq_zero.1 this).resolve_left (by linarith)
  have w0 : w 0 = 0 := by rw [w3] at b3; linarith
  have w1 : w 1 = 0 := by rw [w2] at b4; linarith
  intro p hp
  obtain ⟨k1, k2, k3, k4⟩ := hall (p / 4) (by omega)
  rw [w3] at k1 k3; rw [w2] at k2 k4; rw [w0] at k3; rw [w1] at k4
  have : p = 4 * (p / 4) ∨ p = 4 * (p / 4) + 1 ∨ p = 4 * (p / 4) + 2 ∨ p = 4 * (p / 4) + 3 := by omega
  rcases this with h | h | h | h <;> rw [h]
  · rw [k3]; ring
  · rw [k4]; ring
  · exact k2
  · exact k1

theorem det_ne {A : LMat} (h : ∀ w, form A w w ≤ 0 → ∀ p < A.1, w p = 0) : A.2.det ≠ 0 := by
  intro h0
  obtain ⟨v, hv, hA⟩ := Matrix.exists_mulVec_eq_zero_iff.2 h0
  apply hv
  have hform : form A (fun p => (List.ofFn v).getD p 0) (fun p => (List.ofFn v).getD p 0) = 0 := by
    rw [← sum_mulVec]
    refine Finset.sum_eq_zero fun p hp => ?_
    have hp' := Finset.mem_range.1 hp
    have : (A.mulVec (List.ofFn v)).getD p 0 = (A.2 *ᵥ v) ⟨p, hp'⟩ := by
      unfold LMat.mulVec
      rw [List.getD_eq_getElem?_getD, List.getElem?_eq_getElem (by simpa using hp'), Option.getD_some,
        List.getElem_ofFn]
      simp only [mulVec, dotProduct]
      refine Finset.sum_congr rfl fun j _ => ?_
      rw [List.getD_eq_getElem?_getD, List.getElem?_eq_getElem (by simp), Option.getD_some,
        List.getElem_ofFn]
    rw [this, hA]
    simp
  ext i
  have := h _ hform.le i i.2
  rw [List.getD_eq_getElem?_getD, List.getElem?_eq_getElem (by simp), Option.getD_some,
    List.getElem_ofFn] at this
  exact this

theorem solves {A : LMat} (h : A.2.det ≠ 0) (b : List ℝ) : ∃ l, A.solve b = .ok l := by
  unfold LMat.solve
  rw [if_neg h]
  exact ⟨_, rfl⟩

theorem loads_run {g : ℝ} {pos : List ℝ} (sh : List ShaftEl) :
    ∀ x : ShaftLoads, (∀ e ∈ sh, nodeOf e < x.vx_axis.length) →
      ∃ y, sh.foldlM (addShaftLoad g pos) x = .ok y := by
  induction sh with
  | nil => intro x _; exact ⟨x, rfl⟩
  | cons e t ih =>
    intro x hx
    have h1 : ∃ y, addShaftLoad g pos x e = .ok y ∧ y.vx_axis.length = x.vx_axis.length := by
      unfold addShaftLoad
      dsimp only
      rw [if_pos (hx e List.mem_cons_self)]
      exact ⟨_, rfl, by simp⟩
    obtain ⟨y1, h1, h2⟩ := h1
    obtain ⟨y, hy⟩ := ih y1 (fun e' he' => by
      rw [h2]; exact hx e' (List.mem_cons_of_mem _ he'))
    exact ⟨y, bind_ok.2 ⟨_, h1, hy⟩⟩

theorem bn_run {R : List ℝ} (bs : List BrgEl) :
    ∀ d : Dict ℕ ℝ × Dict (Option String) ℝ, (∀ b ∈ bs, b.n < R.length) →
      ∃ d', bs.foldlM (fun (d : Dict ℕ ℝ × Dict (Option String) ℝ) b =>
        match R[b.n]? with
        | some y => (.ok (Dict.set d.1 b.n y, Dict.set d.2 b.tag y) :
          Res (Dict ℕ ℝ × Dict (Option String) ℝ))
        | none => .error .indexError) d = .ok d' := by
  induction bs with
  | nil => intro x _; exact ⟨x, rfl⟩
  | cons b t ih =>
    intro d hd
    have hb := hd b List.mem_cons_self
    obtain ⟨y, hy⟩ := ih (Dict.set d.1 b.n R[b.n], Dict.set d.2 b.tag R[b.n])
      (fun e' he' => hd e' (List.mem_cons_of_mem _ he'))
    refine ⟨y, bind_ok.2 ⟨_, ?_, hy⟩⟩
    dsimp only
    rw [List.getElem?_eq_getElem hb]

theorem npSub_run {x y : List ℝ} (h : x.length = y.length) : ∃ z, npSub x y = .ok z := by
  unfold npSub; rw [if_pos h]; exact ⟨_, rfl⟩

/-- The static analysis of a sound rotor succeeds. -/
theorem runs {six : Bool} {N : ℕ} (h : init pd fuel a = some (.ok r)) (hw : WellFormed six N a)
    (ht : TagsFree r) (hs : ∀ e ∈ r.shaft, Sound e)
    (hl : ∀ d ∈ carrying r, linkIn r.nodes_pos.length d ≠ some d.n) {b c : BrgEl}
    (hb : b ∈ carrying r) (hc : c ∈ carrying r) (hlb : linkIn r.nodes_pos.length b = none)
    (hlc : linkIn r.nodes_pos.length c = none) (hbc : b.n < c.n) {pd' : Pandas} (hpd : SortsRows pd')
    (sp : Scipy) {fuel' : ℕ} (hfuel : r.bearings.length + 2 ≤ fuel') :
    ∃ st, r.run_static pd' sp fuel' = some (.ok st) := by
  have hbu := init_ok h
  have hfull : Full r.shaft N := by rw [hbu.shaft]; exact (ctx_of_wf hw).full
  have hlen : r.nodes_pos.length = N + 1 := by rw [hbu.pos, hfull.nodesPos]; simp
  have hend : shaftEnd r = N := by
    rw [shaftEnd_last h]; exact hfull.last
  have hcl : (carrying r).length ≤ r.bearings.length := List.length_filter_le _ _
  obtain ⟨x, hx, -⟩ := accepts hpd (aux_wf h hw ht 1e20) (fuel := fuel') (by
    show ((carrying r).map _).length + 2 ≤ _
    rw [List.length_map]; omega)
  obtain ⟨x1, hx1, -⟩ := accepts hpd (aux_wf h hw ht 0) (fuel := fuel') (by
    show ((carrying r).map _).length + 2 ≤ _
    rw [List.length_map]; omega)
  have ax := aux_facts h hx
  have ax1 := aux_facts h hx1
  have hd : ∀ e ∈ r.disks, e.d.n ≤ shaftEnd r := by
    intro e he
    rw [hbu.disks] at he
    rw [hend]
    exact (ctx_of_wf hw).disk_on e he
  obtain ⟨⟨M, hM⟩, ⟨K, hK⟩⟩ := aux_matrices h hx ax (by rw [hlen, hend]) hd hl
  obtain ⟨-, ⟨K1, hK1⟩⟩ := aux_matrices h hx1 ax1 (by rw [hlen, hend]) hd hl
  have lM := (aux_M hx ax hM 0).1
  have lK := (aux_K hx ax hK 0 0).1
  have lK1 := (aux_K hx1 ax1 hK1 0 0).1
  have hcN : c.n ≤ N := by
    have := (List.mem_filter.1 hc).2
    simp only [decide_eq_true_eq, hlen] at this
    omega
  have hdet : (red r.number_dof ⟨x.ndof, K⟩).2.det ≠ 0 := by
    apply det_ne
    intro w hw'
    rw [(aux_K hx ax hK w w).2] at hw'
    rw [lK, hend]
    exact resists hs (fun k hk => (hfull.nodes k).2 hk) hb hc hlb hlc hbc hcN hw'
  obtain ⟨disp, hdisp⟩ := solves hdet ((red r.number_dof ⟨x.ndof, M⟩).mulVec
    (gravityOf (red r.number_dof ⟨x.ndof, M⟩).1))
  obtain ⟨loads, hloads⟩ := loads_run (g := gAcc) (pos := r.nodes_pos) r.shaft
    ⟨List.replicate (r.nodes_pos.length - 1) (0, 0), List.replicate (r.nodes_pos.length - 1) (0, 0),
      List.replicate (r.nodes_pos.length - 1 + 1) 0⟩ (by
      intro e he
      have := (hfull.nodes (nodeOf e)).1 ⟨e, he, rfl⟩
      simp; omega)
  obtain ⟨-, -, hnod, -⟩ := loads_fold r.shaft hloads (by simp) (by simp)
  simp only [List.length_replicate] at hnod
  obtain ⟨reaction, hre⟩ := npSub_run
    (x := from1by4 ((red r.number_dof ⟨x1.ndof, K1⟩).mulVec disp))
    (y := from1by4 ((red r.number_dof ⟨x.ndof, M⟩).mulVec
      (gravityOf (red r.number_dof ⟨x.ndof, M⟩).1))) (by
      rw [from1by4_length (m := shaftEnd r + 1) (by rw [mulVec_length, lK1]),
        from1by4_length (m := shaftEnd r + 1) (by rw [mulVec_length, lM])])
  have hrl : reaction.length = shaftEnd r + 1 := by
    rw [(npSub_ok hre).2.1, from1by4_length (m := shaftEnd r + 1) (by rw [mulVec_length, lK1])]
  obtain ⟨bn, hbn⟩ := bn_run (R := reaction) x.bearings ([], []) (by
    intro d hd'
    obtain ⟨e, he, t, rfl⟩ := aux_mem ax hd'
    have := (List.mem_filter.1 he).2
    simp only [decide_eq_true_eq, hlen] at this
    rw [setTag_n, auxBrg_n, hrl, hend]; omega)
  obtain ⟨nf, hnf⟩ := npSub_run
    (x := from1by4 (((red r.number_dof ⟨x1.ndof, K1⟩).mulVec disp).take (4 * r.nodes_pos.length)))
    (y := loads.nodal) (by
      rw [List.take_of_length_le (by rw [mulVec_length, lK1, hlen, hend]),
        from1by4_length (m := shaftEnd r + 1) (by rw [mulVec_length, lK1]), hnod, hlen, hend]
      rfl)
  have hall : r.bearings.all BrgEl.isSeal ≠ true := by
    intro h'
    have h1 := List.all_eq_true.1 h' b (List.mem_filter.1 hb).1
    have h2 := (List.mem_filter.1 hb).2
    simp [h1] at h2
  apply Exists.intro
  · unfold Rotor.run_static
    rw [if_neg hall, auxBearings_eq, auxBearings_eq]
    dsimp only
    rw [hx, hx1]
    dsimp only
    congr 1
    exact bind_ok.2 ⟨M, hM, bind_ok.2 ⟨K, hK, bind_ok.2 ⟨K1, hK1, bind_ok.2 ⟨disp, hdisp,
      bind_ok.2 ⟨loads, hloads, bind_ok.2 ⟨reaction, hre, bind_ok.2 ⟨bn, hbn, bind_ok.2 ⟨nf, hnf,
        rfl⟩⟩⟩⟩⟩⟩⟩⟩

end Ross.StaticLemmas
