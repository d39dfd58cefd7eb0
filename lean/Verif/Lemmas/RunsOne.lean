import Verif.Lemmas.RunsEx
import Verif.Lemmas.Ucs
import Verif.Lemmas.PersistRotor

/-! # Rotors with one shaft element and any bearings on it -/

namespace Ross.RunLemmas

open Ross Rotor Ross.Spec Ross.RotorLemmas Ross.AssemblyLemmas Ross.Props

/-- One shaft element on the given bearings. -/
noncomputable def oneArgs (w : Option ℝ) (bs : List BrgEl) : RotorArgs where
  shaft := [.el ⟨false, { exShaft with n := some 0, tag := some "shaft" }⟩]
  bearings := bs
  rated_w := w

/-- A bearing with four degrees of freedom, fixed to the ground, without mass, whose coefficients can be evaluated. -/
structure Plain (b : BrgEl) : Prop where
  four : BrgSix false b
  ground : b.n_link = none
  on : b.n ≤ 1
  mat : ∀ ω, (∃ E, (Elm.brg b).M ω = .ok E) ∧ (∃ E, (Elm.brg b).K ω = .ok E) ∧ (∃ E, (Elm.brg b).C ω = .ok E) ∧
    ∃ E, (Elm.brg b).G = .ok E
  mass : ∀ ω, InertBrg ω b

theorem Plain.setTag {b : BrgEl} (h : Plain b) (t : Option String) : Plain (b.setTag t) := by
  obtain ⟨h1, h2, h3, h4, h5⟩ := h
  cases b with
  | brg sl e => exact ⟨h1, h2, h3, h4, fun ω => ⟨(h5 ω).mass, trivial⟩⟩
  | brg6 e => cases h1

theorem oneArgs_wf {w : Option ℝ} {bs : List BrgEl} (hn : (bs.map BrgEl.n).Nodup) (hb : ∀ b ∈ bs, Plain b)
    (ht : (allTags (oneArgs w bs)).Nodup) : WellFormed false 1 (oneArgs w bs) where
  pos := by norm_num
  nodes := by
    intro k
    show k ∈ [0] ↔ k < 1
    simp
  len := by
    intro e he
    simp [oneArgs, shaftList, Nest.flattenAll, Nest.flatten] at he
    subst he
    norm_num [exShaft]
  shaft_six := by
    intro e he
    simp [oneArgs, shaftList, Nest.flattenAll, Nest.flatten] at he
    subst he; rfl
  disk_six := by simp [oneArgs]
  brg_six := fun b h => (hb b h).four
  disk_on := by simp [oneArgs]
  brg_nodes := hn
  brg_on := fun b h => .inl (hb b h).on
  brg_linked := fun b h hlt => absurd (hb b h).on (by omega)
  brg_order := fun b h c hc hlt _ => absurd (hb b h).on (by omega)
  pm_on := by simp [oneArgs]
  tags := ht

/-- Such a rotor can be built, and has a state matrix. -/
theorem one_facts {w : Option ℝ} {bs : List BrgEl} (hn : (bs.map BrgEl.n).Nodup) (hb : ∀ b ∈ bs, Plain b)
    (ht : (allTags (oneArgs w bs)).Nodup) (hl : bs.length + 2 ≤ 10) :
    ∃ r, Rotor.init exPandas 10 (oneArgs w bs) = some (.ok r) ∧ r.number_dof = 4 ∧ r.ndof = 4 * 2 ∧
      r.nodes_pos.length = 2 ∧ r.shaft_elements_length.length + 1 = 2 ∧ (∀ s, ∃ A, r.A s = .ok A) ∧
      r.shaft = [⟨false, { exShaft with n := some 0, tag := some "shaft" }⟩] ∧ r.disks = [] ∧
      r.bearings.Perm (tagBearings bs) ∧ r.rated_w = w := by
  obtain ⟨r, h1, h2, -, h4⟩ := accepts exPandas_sorts (oneArgs_wf hn hb ht) (fuel := 10) hl
  have ho := init_ok h1
  have hend : shaftEnd r = 1 := by rw [shaftEnd_eq h1, lastShaftNode_full h4]
  have hpm : r.pms = [] := by rw [ho.pms]; rfl
  have hdk : r.disks = [] := by rw [ho.disks]; rfl
  have hs : r.shaft = [⟨false, { exShaft with n := some 0, tag := some "shaft" }⟩] := by
    rw [ho.shaft]
    have hp := parts_sh_perm (oneArgs w bs)
    exact List.perm_singleton.1 hp
  have hbr : r.bearings.Perm (tagBearings bs) := by rw [ho.bearings]; exact parts_br_perm _
  have hpl : ∀ b ∈ r.bearings, Plain b := by
    intro b hm
    have := hbr.mem_iff.1 hm
    unfold tagBearings at this
    obtain ⟨i, hi, rfl⟩ := List.mem_mapIdx.1 this
    exact (hb _ (List.getElem_mem hi)).setTag _
  have hfits : ∀ e ∈ r.elements, Fits r.number_dof e := by
    intro e he
    rcases (mem_elements ho e).1 he with ⟨s, hs, h⟩ | ⟨s, hs, h⟩ | ⟨s, hs, h⟩ | ⟨p, hp, h⟩
    · rw [h]; trivial
    · rw [h]; trivial
    · rw [h]; trivial
    · rw [hpm] at hp; cases hp
  have hin : ∀ ω, Inertial r ω := by
    intro ω
    refine ⟨fun e he => ?_, fun k hk => ?_, ?_, fun b hb' => (hpl b hb').mass ω, ?_, fun k k1 k2 => ?_⟩
    · rw [hs] at he
      obtain rfl := List.mem_singleton.1 he
      exact ⟨ShaftLemmas.facts_built (ShaftLemmas.physical_facts exShaft_physical (Or.inr rfl)), exShaft_physical⟩
    · rw [hend] at hk
      refine ⟨_, by rw [hs]; exact List.mem_singleton.2 rfl, ?_⟩
      simp; omega
    · rw [hdk]; simp
    · rw [hpm]; simp
    · rw [hpm] at k2; simp at k2; omega
  have hA : ∀ Ω ω, ∃ A, r.A Ω (some ω) = .ok A := by
    intro Ω ω
    refine C47_state h1 hfits (hin ω) fun e he => ?_
    unfold InRange
    rw [hend, hpm, h2]
    rcases (mem_elements ho e).1 he with ⟨s, hm, h⟩ | ⟨s, hm, h⟩ | ⟨s, hm, h⟩ | ⟨p, hp, h⟩
    · rw [hs] at hm
      obtain rfl := List.mem_singleton.1 hm
      subst h
      refine ⟨fun key hkey => ?_, trivial, ⟨_, rfl⟩, ⟨_, rfl⟩, ⟨_, rfl⟩, ⟨_, rfl⟩⟩
      simp [attach, Elm.n, nodeLetters, dofsAt] at hkey
      rcases hkey with h | h | h | h | h | h | h | h <;> subst h <;> simp
    · rw [hdk] at hm; cases hm
    · subst h
      have hp := hpl s hm
      refine ⟨fun key hkey => ?_, ?_, (hp.mat ω).1, (hp.mat ω).2.1, (hp.mat ω).2.2.1, (hp.mat ω).2.2.2⟩
      · have hon := hp.on
        simp only [attach, Elm.n, Option.getD_some, hp.ground, List.append_nil, supportLetters, dofsAt, List.map_cons,
          List.map_nil, List.mem_cons, List.not_mem_nil, or_false] at hkey
        simp at hkey
        rcases hkey with h | h <;> subst h <;> simp [hon]
      · simp [NotSelfLinked, hp.ground]
    · rw [hpm] at hp; cases hp
  refine ⟨r, h1, h2, ?_, ?_, ?_, fun s => ?_, hs, hdk, hbr, (PersistLemmas.limits h1).2.2.1⟩
  · rw [ho.ndof, h2, hpm]
    rfl
  · rw [ho.pos, hs]
    rfl
  · rw [ho.lens, hs]
    rfl
  · obtain ⟨A, hA⟩ := hA s s
    exact ⟨A, by simpa [Rotor.A] using hA⟩

theorem mapM_total {α β : Type} {f : α → Res β} : ∀ {l : List α}, (∀ x ∈ l, ∃ y, f x = .ok y) → ∃ ys, l.mapM f = .ok ys
  | [], _ => ⟨[], rfl⟩
  | x :: t, h => by
    obtain ⟨y, hy⟩ := h x (List.mem_cons_self ..)
    obtain ⟨ys, hys⟩ := mapM_total (l := t) fun z hz => h z (List.mem_cons_of_mem _ hz)
    exact ⟨y :: ys, by rw [List.mapM_cons, hy, hys]; rfl⟩

theorem mapM_const {α β : Type} {f : α → Res β} {c : β} : ∀ {l : List α}, (∀ x ∈ l, f x = .ok c) →
    l.mapM f = .ok (List.replicate l.length c)
  | [], _ => rfl
  | x :: t, h => by
    rw [List.mapM_cons, h x (List.mem_cons_self ..), mapM_const (l := t) fun z hz => h z (List.mem_cons_of_mem _ hz)]
    rfl

/-- Bearings given by numbers. -/
theorem plain_scalar (sp : Scipy) (sl : Bool) (n : ℕ) (hn : n ≤ 1) (kxx cxx : ℝ) (kxy kyx : ℝ) :
    ∃ e, BearingElement.init sp { n := n, kxx := .scalar kxx, cxx := .scalar cxx, kxy := .scalar kxy, kyx := .scalar kyx } =
      .ok e ∧ Plain (.brg sl e) ∧ e.n = n ∧ e.tag = none := by
  refine ⟨_, rfl, ⟨rfl, rfl, hn, fun ω => ⟨⟨_, rfl⟩, ⟨_, rfl⟩, ⟨_, rfl⟩, ⟨_, rfl⟩⟩, fun ω => ⟨?_, trivial⟩⟩, rfl, rfl⟩
  intro xx xy yx yy h1 h2 h3 h4
  simp only [BrgEl.base, Coeff.eval] at h1 h2 h3 h4
  obtain rfl := Except.ok.inj h1
  obtain rfl := Except.ok.inj h2
  obtain rfl := Except.ok.inj h3
  obtain rfl := Except.ok.inj h4
  norm_num [NonnegForm]

/-- The bearing of the example. -/
noncomputable def exSupport : BrgEl := .brg false { exBrg 0 none 1e6 100 with tag := some "left" }

theorem exSupport_plain : Plain exSupport := by
  refine ⟨rfl, rfl, by simp [exSupport, BrgEl.n, BrgEl.base, exBrg], fun ω => ⟨⟨_, rfl⟩, ⟨_, rfl⟩, ⟨_, rfl⟩, ⟨_, rfl⟩⟩, fun ω => ⟨?_, trivial⟩⟩
  intro xx xy yx yy h1 h2 h3 h4
  simp [exSupport, BrgEl.base, exBrg, constCoeff, Coeff.eval] at h1 h2 h3 h4
  subst h1; subst h2; subst h3; subst h4
  norm_num [NonnegForm]

/-- One shaft element on one bearing, with a rated speed. -/
theorem one_rotor (w : Option ℝ) : ∃ r, Rotor.init exPandas 10 (oneArgs w [exSupport]) = some (.ok r) ∧ r.number_dof = 4 ∧
    r.ndof = 4 * 2 ∧ r.nodes_pos.length = 2 ∧ r.shaft_elements_length.length + 1 = 2 ∧ (∀ s, ∃ A, r.A s = .ok A) ∧
    r.shaft = [⟨false, { exShaft with n := some 0, tag := some "shaft" }⟩] ∧ r.disks = [] ∧ r.bearings = [exSupport] ∧
    r.rated_w = w := by
  obtain ⟨r, h1, h2, h3, h4, h5, h6, h7, h8, h9, h10⟩ := one_facts (w := w) (bs := [exSupport]) (by simp)
    (fun b hb => by rw [List.mem_singleton.1 hb]; exact exSupport_plain) (by
      show (["shaft", "left"] : List String).Nodup
      decide) (by simp)
  exact ⟨r, h1, h2, h3, h4, h5, h6, h7, h8, List.perm_singleton.1 h9, h10⟩

end Ross.RunLemmas
