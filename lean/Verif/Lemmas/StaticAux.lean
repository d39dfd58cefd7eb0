import Verif.Lemmas.StaticRed
import Verif.Props.RotorInit

/-! # The auxiliary rotors of the static analysis -/

namespace Ross.StaticLemmas

open Ross Ross.Spec Ross.BearingLemmas Ross.Rotor Ross.RotorLemmas Ross.ShaftLemmas Ross.Props
  Ross.Shaft6Lemmas Ross.AssemblyLemmas Matrix

variable {pd : Pandas} {a : RotorArgs} {r : Rotor} {fuel : ℕ}

/-- A constant coefficient. -/
def const (x : ℝ) : Coeff := ⟨[x], some fun t => x + (x - x) * t⟩

theorem const_eval (x ω : ℝ) : (const x).eval ω = .ok x := by simp [const, Coeff.eval]

/-- The bearing built by `cls(n=n, n_link=nl, kxx=k, cxx=0)`. -/
def stiff (n : ℕ) (nl : Option ℕ) (k : ℝ) : BearingElement :=
  ⟨n, nl, none, const k, const k, const 0, const 0, const 0, const 0, const 0, const 0, const 0,
    const 0, const 0, const 0, none, 1, "#355d7a"⟩

theorem init_stiff (sp : Scipy) (n : ℕ) (nl : Option ℕ) (k : ℝ) :
    BearingElement.init sp { n := n, kxx := .scalar k, cxx := .scalar 0, n_link := nl } =
      .ok (stiff n nl k) := by
  simp only [BearingElement.init, Coeff.process, Coeff.interpolate, List.length_cons,
    List.length_nil, Option.getD_none, Nat.zero_add, lt_irrefl, if_false, bind, Except.bind]
  rfl

theorem init_stiff6 (sp : Scipy) (n : ℕ) (nl : Option ℕ) (k : ℝ) :
    BearingElement6DoF.init sp { n := n, kxx := .scalar k, cxx := .scalar 0, n_link := nl } =
      .ok ⟨stiff n nl k, const 0, const 0, const 0⟩ := by
  simp only [BearingElement6DoF.init, init_stiff, Coeff.process, Coeff.interpolate, List.length_cons,
    List.length_nil, Nat.zero_add, lt_irrefl, if_false, bind, Except.bind]
  rfl

/-- The link of a bearing, if it leads to a node of the shaft. -/
def linkIn (nodes : ℕ) (b : BrgEl) : Option ℕ :=
  match b.n_link with
  | some l => if l < nodes then some l else none
  | none => none

/-- The bearing that replaces `b`. -/
def auxBrg (nodes : ℕ) (k : ℝ) (b : BrgEl) : BrgEl :=
  match b with
  | .brg _ x => .brg false (stiff x.n (linkIn nodes b) k)
  | .brg6 x => .brg6 ⟨stiff x.base.n (linkIn nodes b) k, const 0, const 0, const 0⟩

/-- The bearings that carry the shaft. -/
def carrying (r : Rotor) : List BrgEl :=
  r.bearings.filter fun b => !b.isSeal ∧ b.n < r.nodes_pos.length

theorem mapM_ok_map {α β : Type} (l : List α) (f : α → Res β) (g : α → β)
    (h : ∀ x ∈ l, f x = .ok (g x)) : l.mapM f = .ok (l.map g) := by
  induction l with
  | nil => rfl
  | cons a t ih =>
    rw [List.mapM_cons, h a List.mem_cons_self, ih fun x hx => h x (List.mem_cons_of_mem _ hx)]
    rfl

theorem auxBearings_eq (r : Rotor) (sp : Scipy) (k : ℝ) :
    r.auxBearings sp k = .ok ((carrying r).map (auxBrg r.nodes_pos.length k)) := by
  unfold Rotor.auxBearings carrying
  refine mapM_ok_map _ _ _ fun b _ => ?_
  cases b with
  | brg s x =>
    dsimp only
    rw [init_stiff]
    rfl
  | brg6 x =>
    dsimp only
    rw [init_stiff6]
    rfl

theorem auxBrg_n (nodes : ℕ) (k : ℝ) (b : BrgEl) : (auxBrg nodes k b).n = b.n := by
  cases b <;> rfl

theorem auxBrg_link (nodes : ℕ) (k : ℝ) (b : BrgEl) :
    (auxBrg nodes k b).n_link = linkIn nodes b := by cases b <;> rfl

theorem auxBrg_iso (nodes : ℕ) (k : ℝ) (b : BrgEl) (t : Option String) :
    Iso k ((auxBrg nodes k b).setTag t) := by
  cases b <;>
    exact ⟨const_eval _ _, const_eval _ _, const_eval _ _, const_eval _ _, const_eval _ _,
      const_eval _ _, const_eval _ _, const_eval _ _⟩

theorem mapIdx_self {α : Type*} (l : List α) (f : ℕ → α → α) (h : ∀ i, ∀ x ∈ l, f i x = x) :
    l.mapIdx f = l := by
  apply List.ext_getElem
  · simp
  · intro i h1 h2
    rw [List.getElem_mapIdx]
    exact h i _ (List.getElem_mem _)

theorem defTag_some (p : String) (i : ℕ) {t : Option String} (h : t.isSome) : defTag p i t = t := by
  cases t with
  | none => simp at h
  | some t => rfl

theorem shaft_given (h : init pd fuel a = some (.ok r)) {e : ShaftEl} (he : e ∈ r.shaft) :
    e.s.n = some (nodeOf e) ∧ e.s.tag.isSome := by
  have hb := init_ok h
  exact ⟨parts_sh_n (hb.shaft ▸ he),
    (C21_tags h).2.2.1 (.shaft e) ((mem_elements hb _).2 (.inl ⟨e, he, rfl⟩))⟩

theorem numberShaft_again (h : init pd fuel a = some (.ok r)) : numberShaft r.shaft = r.shaft := by
  refine mapIdx_self _ _ fun i e he => ?_
  obtain ⟨h1, h2⟩ := shaft_given h he
  rw [h1, Option.getD_some, defTag_some _ _ h2, ← h1]

theorem tagDisks_again (h : init pd fuel a = some (.ok r)) : tagDisks r.disks = r.disks := by
  refine mapIdx_self _ _ fun i e he => ?_
  have hb := init_ok h
  have h2 := (C21_tags h).2.2.1 (.disk e) ((mem_elements hb _).2 (.inr (.inl ⟨e, he, rfl⟩)))
  rw [defTag_some _ _ (t := e.d.tag) h2]

theorem flatten_els (l : List ShaftEl) : Nest.flattenAll (l.map Nest.el) = l := by
  induction l with
  | nil => rfl
  | cons e t ih => simp [Nest.flattenAll, Nest.flatten, ih]

/-- What the auxiliary rotors are. -/
structure AuxOf (r x : Rotor) (k : ℝ) : Prop where
  shaft : x.shaft.Perm r.shaft
  disks : x.disks = r.disks
  bearings : x.bearings.Perm (tagBearings ((carrying r).map (auxBrg r.nodes_pos.length k)))
  pms : x.pms = []
  last : shaftEnd x = shaftEnd r
  nd : x.number_dof = r.number_dof
  iso : ∀ b ∈ x.bearings, Iso k b

theorem aux_facts (h : init pd fuel a = some (.ok r)) {pd' : Pandas} {fuel' : ℕ} {k : ℝ} {x : Rotor}
    (hx : init pd' fuel' (r.auxArgs ((carrying r).map (auxBrg r.nodes_pos.length k))) =
      some (.ok x)) : AuxOf r x k := by
  have hb := init_ok h
  have hbx := init_ok hx
  have hsh₀ : (parts (r.auxArgs ((carrying r).map (auxBrg r.nodes_pos.length k)))).sh₀ = r.shaft := by
    show numberShaft (Nest.flattenAll (r.shaft.map Nest.el)) = r.shaft
    rw [flatten_els, numberShaft_again h]
  have hsh : x.shaft.Perm r.shaft := by
    rw [hbx.shaft]
    exact (parts_sh_perm _).trans (List.Perm.of_eq hsh₀)
  have hbr : x.bearings.Perm
      (tagBearings ((carrying r).map (auxBrg r.nodes_pos.length k))) := by
    rw [hbx.bearings]; exact parts_br_perm _
  refine ⟨hsh, ?_, hbr, ?_, ?_, ?_, ?_⟩
  · rw [hbx.disks]; exact tagDisks_again h
  · rw [hbx.pms]; rfl
  · unfold shaftEnd
    exact maxOr0_perm (hsh.map _)
  · have hne := shaft_ne hbx
    obtain ⟨e, he⟩ := List.exists_mem_of_ne_nil _ hne
    have h1 := (check_ok hbx.dof).2.2.1 e he
    have h2 := (check_ok hb.dof).2.2.1 e (hsh.mem_iff.1 he)
    rw [h1] at h2
    rcases nd_cases hb with h3 | h3 <;> rcases nd_cases hbx with h4 | h4 <;>
      rw [h3, h4] at h2 <;> simp at h2 <;> rw [h3, h4]
  · intro b hbm
    obtain ⟨i, hi, rfl⟩ := List.mem_mapIdx.1 (hbr.mem_iff.1 hbm)
    rw [List.getElem_map]
    exact auxBrg_iso _ _ _ _

/-- Sums over the bearings of an auxiliary rotor. -/
theorem aux_sum {x : Rotor} {k : ℝ} (hx : AuxOf r x k) (f : ℕ → Option ℕ → ℝ) :
    (x.bearings.map fun b => f b.n b.n_link).sum =
      ((carrying r).map fun b => f b.n (linkIn r.nodes_pos.length b)).sum := by
  rw [(hx.bearings.map _).sum_eq, tagBearings, map_mapIdx']
  congr 1
  apply List.ext_getElem
  · simp
  · intro i h1 h2
    simp [setTag_n, setTag_link, auxBrg_n, auxBrg_link]

theorem aux_nodes {x : Rotor} {k : ℝ} (hx : AuxOf r x k) :
    (x.bearings.map BrgEl.n).Perm ((carrying r).map BrgEl.n) := by
  refine (hx.bearings.map _).trans (List.Perm.of_eq ?_)
  rw [tagBearings_nodes, List.map_map]
  exact List.map_congr_left fun b _ => auxBrg_n _ _ _

end Ross.StaticLemmas
