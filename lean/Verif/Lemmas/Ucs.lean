import Verif.Lemmas.Runs
import Verif.Lemmas.Accept2

/-! # Lemmas on the rotors of the critical speed map -/

namespace Ross.RunLemmas

open Ross Rotor Ross.Spec Ross.RotorLemmas

variable {env : RunEnv} {r : Rotor}

theorem everyOther_get {α : Type} : ∀ (l : List α) (j : ℕ), (everyOther l)[j]? = l[2 * j]?
  | [], j => by simp [everyOther]
  | [x], 0 => by simp [everyOther]
  | [x], j + 1 => by simp [everyOther]
  | x :: y :: t, 0 => by simp [everyOther]
  | x :: y :: t, j + 1 => by
    rw [everyOther, List.getElem?_cons_succ, everyOther_get t j, show 2 * (j + 1) = 2 * j + 1 + 1 by ring,
      List.getElem?_cons_succ, List.getElem?_cons_succ]

theorem everyOther_length {α : Type} : ∀ l : List α, (everyOther l).length = (l.length + 1) / 2
  | [] => by simp [everyOther]
  | [x] => by simp [everyOther]
  | x :: y :: t => by
    rw [everyOther, List.length_cons, everyOther_length t, List.length_cons, List.length_cons]
    omega

theorem linspace_length (a b : ℝ) (n : ℕ) : (linspace a b n).length = n := by simp [linspace]

theorem linspace_get {a b : ℝ} {n i : ℕ} (hi : i < n) (hn : 2 ≤ n) :
    (linspace a b n)[i]? = some (a + i * ((b - a) / (n - 1))) := by
  unfold linspace
  rw [List.getElem?_map, List.getElem?_range hi, Option.map_some, if_neg (by omega)]

/-- The spring that replaces a bearing. -/
theorem spring_exists (sp : Scipy) (n : ℕ) (k : ℝ) :
    ∃ b, BearingElement.init sp { n := n, kxx := .scalar k, cxx := .scalar 0 } = .ok b ∧ IsSpring b n k ∧
      b.frequency = none := by
  refine ⟨_, rfl, ⟨rfl, rfl, fun ω => ?_, fun ω => ?_, fun c hc ω => ?_⟩, rfl⟩
  · simp [Coeff.eval]
  · simp [Coeff.eval]
  · simp only [List.mem_cons, List.not_mem_nil, or_false] at hc
    rcases hc with rfl | rfl | rfl | rfl | rfl | rfl | rfl | rfl | rfl | rfl <;> simp [Coeff.eval]

/-- The cross-coupling of a level 1 analysis. -/
theorem cross_exists (sp : Scipy) (n : ℕ) (Q : ℝ) :
    ∃ b, BearingElement.init sp
      { n := n, kxx := .scalar 0, cxx := .scalar 0, kxy := .scalar Q, kyx := .scalar (-Q) } = .ok b ∧ IsCross b n Q := by
  refine ⟨_, rfl, ⟨rfl, rfl, fun ω => ?_, fun ω => ?_, fun c hc ω => ?_⟩⟩
  · simp [Coeff.eval]
  · simp [Coeff.eval]
  · simp only [List.mem_cons, List.not_mem_nil, or_false] at hc
    rcases hc with rfl | rfl | rfl | rfl | rfl | rfl | rfl | rfl | rfl | rfl <;> simp [Coeff.eval]

/-- The springs of a rotor. -/
theorem springs_exists (env : RunEnv) (l : List BrgEl) (k : ℝ) :
    ∃ b, springs env l k = .ok b ∧
      List.Forall₂ (fun x y => ∃ e, y = .brg false e ∧ IsSpring e x.n k) (l.filter fun b => !b.isSeal) b := by
  unfold springs
  generalize l.filter (fun b => !b.isSeal) = t
  induction t with
  | nil => exact ⟨[], rfl, .nil⟩
  | cons x t ih =>
    obtain ⟨b, hb, hf⟩ := ih
    obtain ⟨e, he, hs, -⟩ := spring_exists env.sp x.n k
    refine ⟨.brg false e :: b, ?_, .cons ⟨e, rfl, hs⟩ hf⟩
    rw [List.mapM_cons, he, hb]
    rfl

theorem make_ok {a : RotorArgs} (h : make env a = .ok r) : Rotor.init env.pd env.fuel a = some (.ok r) := by
  unfold make at h
  cases hi : Rotor.init env.pd env.fuel a with
  | none => rw [hi] at h; cases h
  | some x => rw [hi] at h; rw [show x = .ok r from h]

theorem maxOr0_attained : ∀ {l : List ℕ}, l ≠ [] → maxOr0 l ∈ l
  | [x], _ => by simp [maxOr0]
  | x :: y :: t, _ => by
    have ih := maxOr0_attained (l := y :: t) (by simp)
    rw [show maxOr0 (x :: y :: t) = max x (maxOr0 (y :: t)) from rfl]
    rcases max_choice x (maxOr0 (y :: t)) with h | h <;> rw [h]
    · exact List.mem_cons_self ..
    · exact List.mem_cons_of_mem _ ih

theorem le_maxOr0' : ∀ {l : List ℕ} {x : ℕ}, x ∈ l → x ≤ maxOr0 l
  | y :: t, x, h => by
    rw [show maxOr0 (y :: t) = max y (maxOr0 t) from rfl]
    rcases List.mem_cons.1 h with rfl | h
    · exact le_max_left _ _
    · exact (le_maxOr0' h).trans (le_max_right _ _)

theorem flatten_map (l : List ShaftEl) : Nest.flattenAll (l.map Nest.el) = l := by
  induction l with
  | nil => rfl
  | cons x t ih => simp [Nest.flattenAll, Nest.flatten, ih]

/-- Bearings of a rotor without point masses are on the shaft. -/
theorem bearing_inside {pd : Pandas} {fuel : ℕ} {a : RotorArgs} {r' : Rotor} (h : Rotor.init pd fuel a = some (.ok r'))
    (hp : a.pms = []) {b : BrgEl} (hb : b ∈ a.bearings) : ∃ e ∈ r'.shaft, b.n ≤ nodeOf e + 1 := by
  have ho := init_ok h
  have hne : r'.shaft ≠ [] := by
    intro h0
    have := ho.dof
    rw [h0] at this
    simp [checkNumberDof] at this
  have hpm : r'.pms = [] := by rw [ho.pms]; simp [parts, tagPms, hp]
  have hin := ho.inside
  unfold outside at hin
  rw [hpm] at hin
  simp only [decide_eq_false_iff_not, not_lt, gt_iff_lt, List.filterMap_nil] at hin
  obtain ⟨c, hc, hcn, -⟩ := tagBearings_mem hb
  have hmem : b.n ∈ r'.shaft.map nodeOf ++ r'.disks.map (·.d.n) ++ r'.bearings.map BrgEl.n := by
    refine List.mem_append_right _ ?_
    rw [ho.bearings]
    exact List.mem_map.2 ⟨c, (parts_br_perm a).mem_iff.2 hc, hcn⟩
  have h1 := (le_maxOr0' hmem).trans hin
  rw [show maxOr0 [] = 0 from rfl, max_eq_left (Nat.zero_le _)] at h1
  obtain ⟨e, he, hee⟩ := List.mem_map.1 (maxOr0_attained (l := r'.shaft.map fun e => nodeOf e + 1) (by simpa using hne))
  exact ⟨e, he, by omega⟩

/-- A rotor that is built again of the shaft of a rotor has the same nodes. -/
theorem same_nodes {pd : Pandas} {fuel : ℕ} {a : RotorArgs} (h : Rotor.init pd fuel a = some (.ok r)) {pd' : Pandas} {fuel' : ℕ}
    {a' : RotorArgs} {r' : Rotor} (h' : Rotor.init pd' fuel' a' = some (.ok r')) (ha : a'.shaft = r.shaft.map Nest.el)
    {e : ShaftEl} (he : e ∈ r'.shaft) : ∃ x ∈ r.shaft, nodeOf x = nodeOf e := by
  rw [(init_ok h').shaft] at he
  have hs : (parts a').sh₀ = numberShaft r.shaft := by
    rw [show (parts a').sh₀ = numberShaft (Nest.flattenAll a'.shaft) from rfl, ha, flatten_map]
  have := (parts_sh_perm a').mem_iff.1 he
  rw [hs] at this
  unfold numberShaft at this
  obtain ⟨i, hi, rfl⟩ := List.mem_mapIdx.1 this
  refine ⟨r.shaft[i], List.getElem_mem hi, ?_⟩
  have hx : r.shaft[i] ∈ (parts a).sh := by rw [← (init_ok h).shaft]; exact List.getElem_mem hi
  have := parts_sh_n hx
  show nodeOf r.shaft[i] = (some (r.shaft[i].s.n.getD i)).getD 0
  rw [this]
  rfl

end Ross.RunLemmas
