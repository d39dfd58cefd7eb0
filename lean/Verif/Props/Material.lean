import Mathlib.Tactic.FieldSimp
import Mathlib.Tactic.Ring
import Mathlib.Tactic.NormNum
import Mathlib.Tactic.Linarith
import Mathlib.Data.List.Induction
import Verif.Model.Material
import Verif.Spec.Material
import Verif.Lemmas.DictLemmas

/-! # C01, C02: materials -/

namespace Ross.Props

open Ross.Material

/-- **C01**, soundness: whenever `Material(...)` returns, the stored constants satisfy the
elasticity relation, each given constant is stored unchanged, and name, density and colour are
stored unchanged. -/
theorem C01_material_consistent (name : String) (rho : ℝ) (E G ν : Option ℝ) (color : String)
    (m : Material) (h : init name rho E G ν color = .ok m) :
    Spec.ElasticConsistent m.E m.G_s m.Poisson ∧
      (∀ e, E = some e → m.E = e) ∧ (∀ g, G = some g → m.G_s = g) ∧
      (∀ p, ν = some p → m.Poisson = p) ∧ m.name = name ∧ m.rho = rho ∧ m.color = color := by
  unfold init at h
  split_ifs at h with h1 h2
  rcases E with _ | e <;> rcases G with _ | g <;> rcases ν with _ | p <;>
    simp [given] at h h2
  · subst h
    refine ⟨?_, ?_, ?_, ?_, rfl, rfl, rfl⟩ <;> simp [Spec.ElasticConsistent]
    ring
  · unfold pyDiv at h
    split_ifs at h with h3
    · simp [bind, Except.bind] at h
    · simp only [bind, Except.bind, Except.ok.injEq] at h
      subst h
      refine ⟨?_, ?_, ?_, ?_, rfl, rfl, rfl⟩ <;> simp [Spec.ElasticConsistent]
      have h4 : (1 + p) ≠ 0 := fun hp => h3 (by rw [hp]; ring)
      field_simp
  · unfold pyDiv at h
    split_ifs at h with h3
    · simp [bind, Except.bind] at h
    · simp only [bind, Except.bind, Except.ok.injEq] at h
      subst h
      refine ⟨?_, ?_, ?_, ?_, rfl, rfl, rfl⟩ <;> simp [Spec.ElasticConsistent]
      have h4 : g ≠ 0 := fun hp => h3 (by rw [hp]; ring)
      field_simp

/-- **C01**, completeness: the constructor returns exactly when the name has no space, exactly
two of the three constants are given, and the missing one is defined by the relation. -/
theorem C01_material_accepts_iff (name : String) (rho : ℝ) (E G ν : Option ℝ) (color : String) :
    (∃ m, init name rho E G ν color = .ok m) ↔
      ' ' ∉ name.toList ∧
        ((E = none ∧ G.isSome ∧ ν.isSome) ∨
         (∃ p, E.isSome ∧ G = none ∧ ν = some p ∧ p ≠ -1) ∨
         (∃ g, E.isSome ∧ G = some g ∧ ν = none ∧ g ≠ 0)) := by
  unfold init
  by_cases h1 : ' ' ∈ name.toList
  · simp [h1]
  · rcases E with _ | e <;> rcases G with _ | g <;> rcases ν with _ | p <;>
      simp [h1, given, pyDiv, bind, Except.bind]
    · by_cases hp : 1 + p = 0
      · have : p = -1 := by linarith
        simp [this]
      · have : p ≠ -1 := fun h => hp (by rw [h]; norm_num)
        simp [hp, this]
    · by_cases hg : g = 0 <;> simp [hg]

/-- **C01**, refusal: a space in the name, or any number of given constants other than two,
raises `ValueError`. -/
theorem C01_material_rejects (name : String) (rho : ℝ) (E G ν : Option ℝ) (color : String)
    (h : ' ' ∈ name.toList ∨
      ([E.isSome, G.isSome, ν.isSome].filter id).length ≠ 2) :
    init name rho E G ν color = .error .valueError := by
  unfold init
  by_cases h1 : ' ' ∈ name.toList
  · simp [h1]
  · rcases E with _ | e <;> rcases G with _ | g <;> rcases ν with _ | p <;>
      simp_all [given]

/-- Non-vacuity for C01: steel from E and G_s. -/
example : ∃ m, init "Steel" 7810 (some 211e9) (some 81.2e9) none = .ok m := by
  refine (C01_material_accepts_iff _ _ _ _ _ _).2 ⟨by decide, Or.inr (Or.inr ⟨_, rfl, rfl, rfl, ?_⟩)⟩
  norm_num

/-! ## C02 -/

/-- The specification event of a library call. -/
def toEvent : Op → Spec.LibEvent Material
  | .save m => .put m.name m
  | .remove n => .drop n
  | .load _ => .read
  | .available => .read

/-- The table stored in a file under a name. -/
def fileGet (f : Lib) (n : String) : Option Material := f.bind (fun d => Dict.get? d n)

private theorem fileGet_getData (f : Lib) (n : String) :
    Dict.get? (getData f).1 n = fileGet f n := by
  rcases f with _ | d <;> simp [getData, fileGet, Dict.get?]

private theorem fileGet_getData_snd (f : Lib) (n : String) :
    fileGet (getData f).2 n = fileGet f n := by
  rcases f with _ | d <;> simp [getData, fileGet, Dict.get?]

/-- A file is a TOML table: its keys are distinct. -/
def Wf (f : Lib) : Prop := ∀ d, f = some d → (Dict.keys d).Nodup

private theorem Wf_data {f : Lib} (h : Wf f) : (Dict.keys (getData f).1).Nodup := by
  rcases f with _ | d
  · simp [getData, Dict.keys]
  · exact h d rfl

private theorem load_snd (f : Lib) (n : String) : (load f n).2 = (getData f).2 := by
  unfold load
  rcases hd : getData f with ⟨d, f'⟩
  simp only
  cases Dict.get? d n <;> rfl

private theorem wf_step {f : Lib} (h : Wf f) (o : Op) : Wf (step f o) := by
  have hd := Wf_data h
  have h2 : Wf (getData f).2 := by
    intro d hd'
    rcases f with _ | d0
    · simp [getData] at hd'; subst hd'; simp [Dict.keys]
    · simp [getData] at hd'; subst hd'; exact h _ rfl
  cases o with
  | save m =>
    intro d hd'
    simp only [step, save, Option.some.injEq] at hd'
    subst hd'
    exact Dict.nodup_set _ _ _ hd
  | remove n =>
    intro d hd'
    simp only [step, remove] at hd'
    cases hg : Dict.get? (getData f).1 n with
    | none => rw [hg] at hd'; exact h2 d hd'
    | some v =>
      rw [hg] at hd'
      simp only [Option.some.injEq] at hd'
      subst hd'
      exact Dict.nodup_del _ _ hd
  | load n => simp only [step, load_snd]; exact h2
  | available => simpa [step, available] using h2

private theorem fileGet_step {f : Lib} (h : Wf f) (o : Op) (n : String) :
    fileGet (step f o) n =
      match o with
      | .save m => if m.name = n then some m else fileGet f n
      | .remove k => if k = n then none else fileGet f n
      | _ => fileGet f n := by
  cases o with
  | save m =>
    simp only [step, save]
    have := Dict.get?_set (getData f).1 m.name n m
    rw [fileGet_getData] at this
    simpa [fileGet] using this
  | remove k =>
    simp only [step, remove]
    cases hg : Dict.get? (getData f).1 k with
    | none =>
      simp only
      rw [fileGet_getData_snd]
      by_cases hk : k = n
      · subst hk; rw [fileGet_getData] at hg; simp [hg]
      · simp [hk]
    | some v =>
      simp only
      have := Dict.get?_del (getData f).1 k n (Wf_data h)
      rw [fileGet_getData] at this
      simpa [fileGet] using this
  | load k => simp only [step, load_snd, fileGet_getData_snd]
  | available => simp only [step, available, fileGet_getData_snd]

private theorem wf_run {f : Lib} (h : Wf f) (ops : List Op) : Wf (run f ops) := by
  induction ops generalizing f with
  | nil => exact h
  | cons o t ih => exact ih (wf_step h o)

private theorem fileGet_run {f₀ : Lib} (h : Wf f₀) (ops : List Op)
    (n : String) :
    fileGet (run f₀ ops) n = Spec.denotes (fileGet f₀) (ops.reverse.map toEvent) n := by
  induction ops using List.reverseRecOn with
  | nil => simp [run, Spec.denotes]
  | append_singleton t o ih =>
    have hw := wf_run h t
    have hrun : run f₀ (t ++ [o]) = step (run f₀ t) o := by simp [run]
    rw [hrun, fileGet_step hw, ih]
    cases o <;> simp [toEvent, Spec.denotes]

/-- A material as `Material.__init__` leaves it, with a non-degenerate shear modulus: the name
has no space and the constants are consistent. -/
def WellFormed (m : Material) : Prop :=
  ' ' ∉ m.name.toList ∧ Spec.ElasticConsistent m.E m.G_s m.Poisson ∧ m.G_s ≠ 0

private theorem init_of_wellFormed (m : Material) (h : WellFormed m) :
    init m.name m.rho (some m.E) (some m.G_s) none m.color = .ok m := by
  obtain ⟨h1, h2, h3⟩ := h
  have h4 : m.E / (2 * m.G_s) - 1 = m.Poisson := by
    unfold Spec.ElasticConsistent at h2
    rw [h2]; field_simp; ring
  simp [init, h1, given, pyDiv, h3, bind, Except.bind, h4]

/-- **C02**: after any history of library calls starting from any file (absent, empty, or
holding well-formed materials), `load_material(name)` returns exactly the material last saved under that name and not removed
since, and raises `KeyError` when there is none. -/
theorem C02_load_denotes (f₀ : Lib) (hf₀ : Wf f₀)
    (hc : ∀ n m, fileGet f₀ n = some m → WellFormed m) (ops : List Op)
    (hops : ∀ m, Op.save m ∈ ops → WellFormed m) (name : String) :
    (load (run f₀ ops) name).1 =
      match Spec.denotes (fileGet f₀) (ops.reverse.map toEvent) name with
      | none => .error .keyError
      | some m => .ok m := by
  have hg := fileGet_run hf₀ ops name
  have hsome : ∀ (l : List Op), (∀ m, Op.save m ∈ l → WellFormed m) → ∀ m,
      Spec.denotes (fileGet f₀) (l.map toEvent) name = some m → WellFormed m := by
    intro l
    induction l with
    | nil => intro _ m hm; exact hc _ _ (by simpa [Spec.denotes] using hm)
    | cons o t ih =>
      intro hl m hm
      have ht := ih (fun m' hm' => hl m' (List.mem_cons_of_mem _ hm')) m
      cases o with
      | save m' =>
        simp only [List.map_cons, toEvent, Spec.denotes] at hm
        split_ifs at hm with hn
        · cases hm; exact hl _ (by simp)
        · exact ht hm
      | remove k =>
        simp only [List.map_cons, toEvent, Spec.denotes] at hm
        split_ifs at hm with hn
        exact ht hm
      | load k => simp only [List.map_cons, toEvent, Spec.denotes] at hm; exact ht hm
      | available => simp only [List.map_cons, toEvent, Spec.denotes] at hm; exact ht hm
  unfold load
  rw [← fileGet_getData] at hg
  rcases hd : getData (run f₀ ops) with ⟨d, f'⟩
  rw [hd] at hg
  simp only at hg ⊢
  cases hv : Spec.denotes (fileGet f₀) (ops.reverse.map toEvent) name with
  | none => rw [hv] at hg; rw [hg]
  | some m =>
    rw [hv] at hg; rw [hg]
    exact init_of_wellFormed m (hsome ops.reverse (fun m' hm' => hops m' (by simpa using hm')) m hv)

/-- **C02**, listing: `available_materials()` lists exactly the names that denote a material,
each once. -/
theorem C02_available (f₀ : Lib) (hf₀ : Wf f₀) (ops : List Op) :
    (available (run f₀ ops)).1.Nodup ∧ ∀ name, name ∈ (available (run f₀ ops)).1 ↔
      (Spec.denotes (fileGet f₀) (ops.reverse.map toEvent) name).isSome := by
  refine ⟨Wf_data (wf_run hf₀ ops), fun name => ?_⟩
  rw [← fileGet_run hf₀ ops name, ← fileGet_getData, ← Dict.mem_keys_iff]
  rfl

/-- **C02**, reading does not write: `load_material` and `available_materials` leave every
stored material as it was. -/
theorem C02_reads_pure (f : Lib) (n k : String) :
    ((load f n).2.getD []) = f.getD [] ∧ ((available f).2.getD []) = f.getD [] ∧
      (load (load f n).2 k).1 = (load f k).1 := by
  refine ⟨?_, ?_, ?_⟩
  · rw [load_snd]; rcases f with _ | d <;> rfl
  · rcases f with _ | d <;> rfl
  · rw [load_snd]; rcases f with _ | d <;> rfl

/-- Without the hypothesis on the saved names the claim fails: a material renamed after
construction to a name with a space is saved but cannot be loaded back. -/
theorem C02_space_name_not_loadable :
    ∃ (ops : List Op) (name : String),
      (Spec.denotes (fileGet none) (ops.reverse.map toEvent) name).isSome ∧
      (load (run none ops) name).1 = .error .valueError := by
  refine ⟨[.save ⟨"my steel", 7810, 211, 81, 211 / 162 - 1, "c"⟩], "my steel", ?_, ?_⟩
  · simp [toEvent, Spec.denotes]
  · simp only [run, List.foldl, step, save, getData, Dict.set, load, Dict.get?, if_true]
    exact C01_material_rejects _ _ _ _ _ _ (Or.inl (by decide))

/-- Non-vacuity for C02: saving, overwriting, removing another name. -/
example : ∃ (m₁ m₂ : Material), WellFormed m₁ ∧ WellFormed m₂ ∧ m₁.rho ≠ m₂.rho ∧
    (load (run none [.save m₁, .save m₂, .remove "Bronze"]) "Steel").1 = .ok m₂ := by
  let m₁ : Material := ⟨"Steel", 7810, 260, 100, 0.3, "c"⟩
  let m₂ : Material := ⟨"Steel", 7700, 260, 100, 0.3, "c"⟩
  have h1 : WellFormed m₁ := ⟨by decide, by simp [Spec.ElasticConsistent, m₁]; norm_num, by simp [m₁]⟩
  have h2 : WellFormed m₂ := ⟨by decide, by simp [Spec.ElasticConsistent, m₂]; norm_num, by simp [m₂]⟩
  refine ⟨m₁, m₂, h1, h2, by simp [m₁, m₂], ?_⟩
  rw [C02_load_denotes none (by intro d hd; cases hd) (by intro n m hm; simp [fileGet] at hm)]
  · simp [Spec.denotes, toEvent, m₁, m₂]
  · intro m hm
    simp at hm
    rcases hm with rfl | rfl <;> assumption

end Ross.Props
