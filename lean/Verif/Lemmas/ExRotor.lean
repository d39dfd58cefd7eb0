import Verif.Lemmas.Accept2
import Verif.Props.ShaftGeometry

/-! # A concrete rotor for the non-vacuity examples

Two shaft elements, a disk on node 1, bearings on nodes 0 and 2, the first of them standing on a
support of mass 10 at node 3, which is itself held by a bearing. -/

namespace Ross.RotorLemmas

open Ross Ross.Spec Ross.Props

/-- The coefficient object of a constant. -/
noncomputable def constCoeff (x : ℝ) : Coeff := ⟨[x], some fun ω => x + (x - x) * ω⟩

/-- A bearing with constant stiffness `k` and damping `c`. -/
noncomputable def exBrg (n : ℕ) (link : Option ℕ) (k c : ℝ) : BearingElement :=
  ⟨n, link, none, constCoeff k, constCoeff k, constCoeff 0, constCoeff 0, constCoeff c, constCoeff c,
    constCoeff 0, constCoeff 0, constCoeff 0, constCoeff 0, constCoeff 0, constCoeff 0, none, 1, ""⟩

theorem exBrg_init (sp : Scipy) (n : ℕ) (link : Option ℕ) (k c : ℝ) :
    BearingElement.init sp
      { n := n, kxx := .scalar k, cxx := .scalar c, n_link := link, color := "" } =
      .ok (exBrg n link k c) := rfl

noncomputable def exEl (x : Option ℕ) : ShaftEl := ⟨false, { exShaft with n := x }⟩

noncomputable def exArgs : RotorArgs where
  shaft := [.list [.el (exEl none), .el (exEl none)]]
  disks := [⟨false, ⟨1, 30, 1, 2, some "impeller", 1, ""⟩⟩]
  bearings := [.brg false (exBrg 3 none 1e7 10), .brg false (exBrg 0 (some 3) 1e6 100),
    .brg true (exBrg 2 none 1e6 100)]
  pms := [.pm ⟨some 3, some 10, 10, 10, none, ""⟩]
  rated_w := some 100

theorem exArgs_tags : (allTags exArgs).Nodup := by decide

theorem exArgs_wf : WellFormed false 2 exArgs where
  pos := by norm_num
  nodes := by
    intro k
    show k ∈ [0, 1] ↔ k < 2
    simp; omega
  len := by
    intro e he
    simp [exArgs, shaftList, Nest.flattenAll, Nest.flatten] at he
    subst he
    norm_num [exEl, exShaft]
  shaft_six := by
    intro e he
    simp [exArgs, shaftList, Nest.flattenAll, Nest.flatten] at he
    subst he; rfl
  disk_six := by intro e he; simp [exArgs] at he; subst he; rfl
  brg_six := by
    intro e he; simp [exArgs] at he
    rcases he with rfl | rfl | rfl <;> rfl
  disk_on := by intro e he; simp [exArgs] at he; subst he; norm_num
  brg_nodes := by simp [exArgs, BrgEl.n, BrgEl.base, exBrg]
  brg_on := by
    intro e he; simp [exArgs] at he
    rcases he with rfl | rfl | rfl
    · right; exact ⟨_, List.mem_cons_self, rfl⟩
    · left; norm_num [BrgEl.n, BrgEl.base, exBrg]
    · left; norm_num [BrgEl.n, BrgEl.base, exBrg]
  brg_linked := by
    intro e he h; simp [exArgs] at he
    rcases he with rfl | rfl | rfl
    · exact ⟨_, List.mem_cons_of_mem _ List.mem_cons_self, rfl⟩
    · norm_num [BrgEl.n, BrgEl.base, exBrg] at h
    · norm_num [BrgEl.n, BrgEl.base, exBrg] at h
  brg_order := by
    intro e he c hc h hl; simp [exArgs] at he hc
    rcases he with rfl | rfl | rfl <;> rcases hc with rfl | rfl | rfl <;>
      simp [BrgEl.n, BrgEl.n_link, BrgEl.base, exBrg] at h hl ⊢
  pm_on := by
    intro p hp; simp [exArgs] at hp; subst hp
    exact ⟨_, List.mem_cons_self, rfl⟩
  tags := exArgs_tags

/-- Sorting that leaves the rows as they are; any other permutation would do. -/
def exPandas : Pandas := ⟨id⟩

theorem exPandas_sorts : SortsRows exPandas := fun _ => List.Perm.refl _

theorem exRotor_exists : ∃ r, Rotor.init exPandas 10 exArgs = some (.ok r) ∧ r.number_dof = 4 ∧
    Full r.shaft 2 := by
  obtain ⟨r, h1, h2, -, h4⟩ := accepts exPandas_sorts exArgs_wf (fuel := 10) (by simp [exArgs])
  exact ⟨r, h1, h2, h4⟩

end Ross.RotorLemmas
