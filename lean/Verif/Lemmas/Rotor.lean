import Mathlib.Data.List.Sort
import Verif.Model.Rotor
import Verif.Spec.Rotor
import Verif.Lemmas.DictLemmas
import Verif.Lemmas.Bearing
import Verif.Lemmas.ListRes

/-! # Facts about constructed rotors -/

namespace Ross.RotorLemmas

open Ross Ross.Spec Ross.BearingLemmas Ross.Rotor

variable {pd : Pandas} {a : RotorArgs} {r r' : Rotor}

/-- What `build` established. -/
structure Built (pd : Pandas) (a : RotorArgs) (r : Rotor) : Prop where
  shaft : r.shaft = (parts a).sh
  disks : r.disks = (parts a).dk
  bearings : r.bearings = (parts a).br
  pms : r.pms = (parts a).pm
  tags : ((parts a).elements.map Elm.tag).Nodup
  dof : checkNumberDof r.shaft r.disks r.bearings = .ok r.number_dof
  inside : outside r.shaft r.disks r.bearings r.pms = false
  placed : (parts a).elements.mapM (place r.number_dof (lastNode r.shaft)) = .ok r.placed
  ndof : r.ndof = ndofOf r.number_dof (parts a).sh₀ r.pms
  cg : r.axial_cg_pos = axialCg r.shaft
  pos : r.nodes_pos = nodesPos r.shaft
  idn : r.nodes_i_d = nodesId r.shaft
  odn : r.nodes_o_d = nodesOd r.shaft
  lens : r.shaft_elements_length = elementsLength r.shaft
  L : r.L = (r.nodes_pos.getLast?).getD 0
  m_disks : r.m_disks = (r.disks.map fun e => e.d.m).sum
  m_shaft : r.m_shaft = (r.shaft.map fun e => e.s.m).sum
  m : r.m = r.m_disks + r.m_shaft
  CG : ∃ dkpos, r.disks.mapM (fun e => posAt r.nodes_pos e.d.n) = .ok dkpos ∧
    r.CG = centre r.shaft r.disks dkpos r.m
  Ip : r.Ip = (r.shaft.map fun e => e.s.Im).sum + (r.disks.map fun e => e.d.Ip).sum

theorem build_ok (h : build pd a = .ok r) : Built pd a r := by
  unfold build at h
  dsimp only at h
  by_cases h1 : ¬ ((parts a).elements.map Elm.tag).Nodup
  · rw [if_pos h1] at h; cases h
  rw [if_neg h1] at h
  obtain ⟨nd, h2, h3⟩ := bind_ok.1 h
  unfold buildFrom at h3
  dsimp only at h3
  by_cases h4 : outside (parts a).sh (parts a).dk (parts a).br (parts a).pm = true
  · rw [if_pos h4] at h3; cases h3
  rw [if_neg h4] at h3
  obtain ⟨dkpos, h5, h6⟩ := bind_ok.1 h3
  obtain ⟨pl, h7, h8⟩ := bind_ok.1 h6
  have h9 := Except.ok.inj h8
  subst h9
  exact
    { shaft := rfl, disks := rfl, bearings := rfl, pms := rfl
      tags := not_not.1 h1, dof := h2, inside := by simpa using h4, placed := h7, ndof := rfl
      cg := rfl, pos := rfl, idn := rfl, odn := rfl, lens := rfl, L := rfl, m_disks := rfl
      m_shaft := rfl, m := rfl, CG := ⟨dkpos, h5, rfl⟩, Ip := rfl }

theorem finish_ok {rows : List Row} (h : finish r rows = .ok r') :
    ∃ df, r' = { r with df := df } := by
  unfold finish at h
  dsimp only at h
  obtain ⟨_, _, h2⟩ := bind_ok.1 h
  obtain ⟨df, _, h3⟩ := bind_ok.1 h2
  exact ⟨df, (Except.ok.inj h3).symm⟩

theorem init_ok_build {fuel : ℕ} (h : init pd fuel a = some (.ok r)) :
    ∃ r₀ rows, build pd a = .ok r₀ ∧
      cycleLoop r₀.bearings fuel r₀.bearings r₀.df (r₀.bearings.map BrgEl.tag) = some (.ok rows) ∧
      finish r₀ rows = .ok r := by
  unfold init at h
  cases h1 : build pd a with
  | error e => rw [h1] at h; simp at h
  | ok r₀ =>
    rw [h1] at h
    simp only at h
    cases h2 : cycleLoop r₀.bearings fuel r₀.bearings r₀.df (r₀.bearings.map BrgEl.tag) with
    | none => rw [h2] at h; simp at h
    | some x =>
      rw [h2] at h
      cases x with
      | error e => simp at h
      | ok rows => exact ⟨r₀, rows, rfl, h2, by simpa using h⟩

theorem init_ok {fuel : ℕ} (h : init pd fuel a = some (.ok r)) : Built pd a r := by
  obtain ⟨r₀, rows, h1, -, h3⟩ := init_ok_build h
  obtain ⟨df, rfl⟩ := finish_ok h3
  have := build_ok h1
  exact
    { shaft := this.shaft, disks := this.disks, bearings := this.bearings, pms := this.pms
      tags := this.tags, dof := this.dof, inside := this.inside, placed := this.placed
      ndof := this.ndof, cg := this.cg, pos := this.pos, idn := this.idn, odn := this.odn
      lens := this.lens, L := this.L, m_disks := this.m_disks, m_shaft := this.m_shaft
      m := this.m, CG := this.CG, Ip := this.Ip }

/-! ### Numbering of the shaft -/

theorem numberShaft_n {l : List ShaftEl} {e : ShaftEl} (h : e ∈ numberShaft l) :
    e.s.n.isSome := by
  unfold numberShaft at h
  obtain ⟨i, hi, rfl⟩ := List.mem_mapIdx.1 h
  rfl

theorem parts_sh_perm (a : RotorArgs) : (parts a).sh.Perm (parts a).sh₀ :=
  List.mergeSort_perm _ _

theorem parts_sh_n {e : ShaftEl} (h : e ∈ (parts a).sh) : e.s.n = some (nodeOf e) := by
  have := numberShaft_n ((parts_sh_perm a).mem_iff.1 h)
  obtain ⟨n, hn⟩ := Option.isSome_iff_exists.1 this
  simp [nodeOf, hn]

theorem parts_sh_sorted (a : RotorArgs) :
    (parts a).sh.Pairwise fun x y => nodeOf x ≤ nodeOf y := by
  have := List.pairwise_mergeSort (le := fun a b : ShaftEl => decide (nodeOf a ≤ nodeOf b))
    (fun a b c h1 h2 => by simp at *; omega) (fun a b => by simp; omega) (parts a).sh₀
  simpa [parts, sortShaft] using this

theorem maxOr0_le {l : List ℕ} {x : ℕ} : maxOr0 l ≤ x ↔ ∀ y ∈ l, y ≤ x := by
  induction l with
  | nil => simp [maxOr0]
  | cons b t ih =>
    have : maxOr0 (b :: t) = max b (maxOr0 t) := rfl
    rw [this, max_le_iff, ih]; simp

theorem le_maxOr0 {l : List ℕ} {x : ℕ} (h : x ∈ l) : x ≤ maxOr0 l := maxOr0_le.1 le_rfl x h

theorem maxOr0_mem {l : List ℕ} (h : l ≠ []) : maxOr0 l ∈ l := by
  induction l with
  | nil => exact absurd rfl h
  | cons b t ih =>
    have e : maxOr0 (b :: t) = max b (maxOr0 t) := rfl
    by_cases ht : t = []
    · subst ht; simp [maxOr0]
    · rw [e]
      rcases max_choice b (maxOr0 t) with h1 | h1 <;> rw [h1]
      · exact List.mem_cons_self
      · exact List.mem_cons_of_mem _ (ih ht)

theorem maxOr0_perm {l l' : List ℕ} (h : l.Perm l') : maxOr0 l = maxOr0 l' := by
  apply le_antisymm
  · exact maxOr0_le.2 fun y hy => le_maxOr0 (h.mem_iff.1 hy)
  · exact maxOr0_le.2 fun y hy => le_maxOr0 (h.mem_iff.2 hy)

theorem lastNode_eq (a : RotorArgs) :
    lastNode (parts a).sh = maxOr0 ((parts a).sh₀.map nodeOf) := by
  rw [← maxOr0_perm ((parts_sh_perm a).map nodeOf)]
  have hs := parts_sh_sorted a
  generalize (parts a).sh = l at hs
  unfold lastNode
  induction l using List.reverseRecOn with
  | nil => rfl
  | append_singleton t e _ =>
    simp only [List.getLast?_append, List.getLast?_singleton, Option.some_or, Option.map_some,
      Option.getD_some, List.map_append, List.map_cons, List.map_nil]
    apply le_antisymm
    · exact le_maxOr0 (by simp)
    · refine maxOr0_le.2 fun y hy => ?_
      rcases List.mem_append.1 hy with hy | hy
      · obtain ⟨z, hz, rfl⟩ := List.mem_map.1 hy
        exact (List.pairwise_append.1 hs).2.2 z hz e (by simp)
      · simp only [List.mem_singleton] at hy
        exact hy.le

/-- The last shaft node of a constructed rotor. -/
def lastShaftNode (r : Rotor) : ℕ := lastNode r.shaft + 1

theorem node_le_last (hb : Built pd a r) {e : ShaftEl} (he : e ∈ r.shaft) :
    nodeOf e ≤ lastNode r.shaft := by
  rw [hb.shaft] at he ⊢
  rw [lastNode_eq, ← maxOr0_perm ((parts_sh_perm a).map nodeOf)]
  exact le_maxOr0 (List.mem_map.2 ⟨e, he, rfl⟩)

/-! ### The degree-of-freedom check -/

theorem check_ok {sh : List ShaftEl} {dk : List DiskEl} {br : List BrgEl} {nd : ℕ}
    (h : checkNumberDof sh dk br = .ok nd) :
    sh ≠ [] ∧ (nd = 4 ∨ nd = 6) ∧ (∀ e ∈ sh, e.six = decide (nd = 6)) ∧
      (∀ e ∈ dk, e.six = decide (nd = 6)) ∧
      (∀ b ∈ br, (match b with | .brg _ _ => nd = 4 | .brg6 _ => nd = 6)) := by
  cases sh with
  | nil => simp [checkNumberDof] at h
  | cons e t =>
    unfold checkNumberDof at h
    dsimp only at h
    split_ifs at h with h1 h2 h3
    have hnd := Except.ok.inj h
    have he : nMap (.shaft e) / 2 = 4 ∧ e.six = false ∨ nMap (.shaft e) / 2 = 6 ∧ e.six = true := by
      obtain ⟨b, s⟩ := e
      cases b <;> simp [nMap, Elm.dofMapping]
    rw [hnd] at h1 h2 h3 he
    have h1' : ∀ s ∈ e :: t, nMap (.shaft s) = nd * 2 := by
      intro s hs
      by_contra hc
      exact h1 (List.any_eq_true.2 ⟨s, hs, by simpa using hc⟩)
    have h2' : ∀ s ∈ dk, nMap (.disk s) = nd := by
      intro s hs
      by_contra hc
      exact h2 (List.any_eq_true.2 ⟨s, hs, by simpa using hc⟩)
    have h3' : ∀ s ∈ br, nMap (.brg s) = nd / 2 := by
      intro s hs
      by_contra hc
      exact h3 (List.any_eq_true.2 ⟨s, hs, by simpa using hc⟩)
    have hnd' : nd = 4 ∨ nd = 6 := by omega
    refine ⟨by simp, hnd', ?_, ?_, ?_⟩
    · rintro ⟨b, s⟩ hs
      have := h1' _ hs
      cases b <;> simp [nMap, Elm.dofMapping] at this ⊢ <;> omega
    · rintro ⟨b, s⟩ hs
      have := h2' _ hs
      cases b <;> simp [nMap, Elm.dofMapping] at this ⊢ <;> omega
    · intro b hb
      have := h3' _ hb
      cases b <;> simp [nMap, Elm.dofMapping] at this ⊢ <;> omega

/-! ### Global indices -/

/-- First index of the block of node `n`. -/
def base (nd nl n : ℕ) : ℕ :=
  if n ≤ nl + 1 then nd * n else nd / 2 * nl + nd / 2 * n + nd

theorem foldl_set_keys (m : Dict DofKey ℕ) (n : ℕ) (acc : Dict DofKey ℕ)
    (h : (acc.keys ++ m.map fun kv => (kv.1.1, kv.1.2 + n)).Nodup) :
    m.foldl (fun g kv => Dict.set g (kv.1.1, kv.1.2 + n) kv.2) acc =
      acc ++ m.map fun kv => ((kv.1.1, kv.1.2 + n), kv.2) := by
  induction m generalizing acc with
  | nil => simp
  | cons kv t ih =>
    rw [List.foldl_cons]
    have hk : (kv.1.1, kv.1.2 + n) ∉ acc.keys := by
      intro hm
      have := (List.nodup_append.1 h).2.2 _ hm _ (List.mem_map.2 ⟨kv, List.mem_cons_self, rfl⟩)
      exact this rfl
    rw [Dict.set_of_not_mem _ _ _ hk, ih]
    · simp
    · simpa [Dict.keys] using h

theorem globalDofs_none (nd nl n : ℕ) (m : Dict DofKey ℕ) (h : m.keys.Nodup) :
    globalDofs nd nl n none m = m.map fun kv => ((kv.1.1, kv.1.2 + n), base nd nl n + kv.2) := by
  unfold globalDofs
  dsimp only
  rw [foldl_set_keys m n []]
  · simp only [List.nil_append, List.map_map]
    refine List.map_congr_left fun kv _ => ?_
    simp only [Function.comp, base]
    split_ifs <;> rfl
  · have : (m.map fun kv => (kv.1.1, kv.1.2 + n)) = m.keys.map fun k => (k.1, k.2 + n) := by
      simp [Dict.keys]
    rw [this]
    simp only [Dict.keys, List.map_nil, List.nil_append]
    refine List.Nodup.map ?_ h
    rintro ⟨a, b⟩ ⟨c, d⟩ hh
    simp only [Prod.mk.injEq, Nat.add_right_cancel_iff] at hh
    exact Prod.ext hh.1 hh.2

theorem dofMapping_keys (e : Elm) : e.dofMapping.keys.Nodup := by
  rcases e with ⟨_ | _, s⟩ | ⟨_ | _, d⟩ | (_ | _) | (_ | _) <;>
    simp [Elm.dofMapping, Dict.keys]

/-- The link entries of a bearing. -/
def linkKeys (nd nl k : ℕ) : Dict DofKey ℕ :=
  if nd = 6 then [(("x", k), base nd nl k), (("y", k), base nd nl k + 1), (("z", k), base nd nl k + 2)]
  else [(("x", k), base nd nl k), (("y", k), base nd nl k + 1)]

theorem globalDofs_some (nd nl n k : ℕ) (m : Dict DofKey ℕ) (h : m.keys.Nodup)
    (hm : ∀ x ∈ m, x.1.2 = 0) (hk : k ≠ n) :
    globalDofs nd nl n (some k) m =
      (m.map fun kv => ((kv.1.1, kv.1.2 + n), base nd nl n + kv.2)) ++ linkKeys nd nl k := by
  have h0 := globalDofs_none nd nl n m h
  unfold globalDofs at h0 ⊢
  dsimp only at h0 ⊢
  rw [h0]
  have hb : (if k ≤ nl + 1 then nd * k else nd / 2 * nl + nd / 2 * k + nd) = base nd nl k := rfl
  rw [hb]
  set g : Dict DofKey ℕ := m.map fun kv => ((kv.1.1, kv.1.2 + n), base nd nl n + kv.2) with hg
  have hgk : ∀ l : String, (l, k) ∉ Dict.keys g := by
    intro l hl
    simp only [Dict.keys, hg, List.map_map, List.mem_map, Function.comp] at hl
    obtain ⟨kv, hkv, he⟩ := hl
    have := hm kv hkv
    simp only [Prod.mk.injEq] at he
    omega
  rw [Dict.set_of_not_mem g _ _ (hgk "x")]
  have h1 : ("y", k) ∉ Dict.keys (g ++ [(("x", k), base nd nl k)]) := by
    have := hgk "y"
    simp only [Dict.keys, List.map_append, List.mem_append] at this ⊢
    push Not
    exact ⟨this, by simp⟩
  rw [Dict.set_of_not_mem _ _ _ h1]
  unfold linkKeys
  by_cases h6 : nd = 6
  · rw [if_pos h6, if_pos h6]
    have h2 : ("z", k) ∉ Dict.keys (g ++ [(("x", k), base nd nl k)] ++
        [(("y", k), base nd nl k + 1)]) := by
      have := hgk "z"
      simp only [Dict.keys, List.map_append, List.mem_append] at this ⊢
      push Not
      exact ⟨⟨this, by simp⟩, by simp⟩
    rw [Dict.set_of_not_mem _ _ _ h2]
    simp
  · rw [if_neg h6, if_neg h6]
    simp

/-- A bearing linked to its own node: the keys are overwritten. -/
theorem globalDofs_self (nd nl n : ℕ) (b : BrgEl)
    (hb : match b with | .brg _ _ => nd = 4 | .brg6 _ => nd = 6) :
    globalDofs nd nl n (some n) (Elm.brg b).dofMapping = linkKeys nd nl n := by
  cases b with
  | brg s b =>
    simp only at hb
    subst hb
    simp [globalDofs, Elm.dofMapping, Dict.set, linkKeys, base]
  | brg6 b =>
    simp only at hb
    subst hb
    simp [globalDofs, Elm.dofMapping, Dict.set, linkKeys, base]

theorem place_ok {nd nl : ℕ} {l : List Elm} {pl : List (Elm × Dict DofKey ℕ)}
    (h : l.mapM (place nd nl) = .ok pl) :
    pl.map Prod.fst = l ∧ ∀ x ∈ pl, ∃ n, x.1.n = some n ∧
      x.2 = globalDofs nd nl n x.1.n_link x.1.dofMapping := by
  rw [mapM_ok_iff] at h
  induction l generalizing pl with
  | nil =>
    cases pl with
    | nil => simp
    | cons _ _ => simp at h
  | cons e t ih =>
    cases pl with
    | nil => simp at h
    | cons p pl =>
      simp only [List.map_cons, List.cons.injEq] at h
      obtain ⟨h1, h2⟩ := ih h.2
      have h3 : p.1 = e ∧ ∃ n, e.n = some n ∧ p.2 = globalDofs nd nl n e.n_link e.dofMapping := by
        have h4 := h.1
        unfold place at h4
        cases hn : e.n with
        | none => rw [hn] at h4; simp at h4
        | some n =>
          rw [hn] at h4
          simp only [Except.ok.injEq] at h4
          exact ⟨by rw [← h4], n, rfl, by rw [← h4]⟩
      refine ⟨by simp [h1, h3.1], ?_⟩
      intro x hx
      rcases List.mem_cons.1 hx with rfl | hx
      · rw [h3.1]; exact h3.2
      · exact h2 x hx

theorem elements_eq (hb : Built pd a r) : r.elements = (parts a).elements := (place_ok hb.placed).1

theorem elements_eq' (hb : Built pd a r) :
    r.elements = r.shaft.map Elm.shaft ++ r.disks.map Elm.disk ++ r.bearings.map Elm.brg ++
      r.pms.map Elm.pm := by
  rw [elements_eq hb, Parts.elements, hb.shaft, hb.disks, hb.bearings, hb.pms]

theorem mem_elements (hb : Built pd a r) (e : Elm) :
    e ∈ r.elements ↔ (∃ s ∈ r.shaft, e = .shaft s) ∨ (∃ s ∈ r.disks, e = .disk s) ∨
      (∃ s ∈ r.bearings, e = .brg s) ∨ (∃ s ∈ r.pms, e = .pm s) := by
  rw [elements_eq' hb]
  simp only [List.mem_append, List.mem_map]
  constructor
  · rintro (((⟨x, h, rfl⟩ | ⟨x, h, rfl⟩) | ⟨x, h, rfl⟩) | ⟨x, h, rfl⟩)
    · exact .inl ⟨x, h, rfl⟩
    · exact .inr (.inl ⟨x, h, rfl⟩)
    · exact .inr (.inr (.inl ⟨x, h, rfl⟩))
    · exact .inr (.inr (.inr ⟨x, h, rfl⟩))
  · rintro (⟨x, h, rfl⟩ | ⟨x, h, rfl⟩ | ⟨x, h, rfl⟩ | ⟨x, h, rfl⟩)
    · exact .inl (.inl (.inl ⟨x, h, rfl⟩))
    · exact .inl (.inl (.inr ⟨x, h, rfl⟩))
    · exact .inl (.inr ⟨x, h, rfl⟩)
    · exact .inr ⟨x, h, rfl⟩

theorem placed_mem (_hb : Built pd a r) {x : Elm × Dict DofKey ℕ} (hx : x ∈ r.placed) :
    x.1 ∈ r.elements := List.mem_map.2 ⟨x, hx, rfl⟩

end Ross.RotorLemmas
