import Verif.Model.Deflected
import Verif.Spec.Deflected
import Verif.Lemmas.Readout

/-!
# Lemmas about deflected shapes at a speed
-/

namespace Ross.DeflectedLemmas

open Ross Ross.Spec Ross.Rotor Ross.RotorLemmas Ross.ReadoutLemmas

variable {pd : Pandas} {fuel : ℕ} {a : RotorArgs} {r : Rotor} {six : Bool} {N : ℕ}

theorem near_iff {w speed : ℝ} : IsClose w speed ↔ Near w speed := by
  unfold IsClose Near
  norm_num

theorem index_of {speeds : List ℝ} {speed : ℝ} {i : ℕ} (h : FirstNear speeds speed i) :
    speedIndex speeds speed = .ok i := by
  obtain ⟨⟨w, hw, hn⟩, hj⟩ := h
  obtain ⟨hi, rfl⟩ := List.getElem?_eq_some_iff.1 hw
  have : speeds.findIdx? (fun a => @decide (IsClose a speed) (Classical.propDecidable _)) = some i := by
    rw [List.findIdx?_eq_some_iff_getElem]
    refine ⟨hi, by simpa using near_iff.2 hn, fun j hji => ?_⟩
    simpa using fun e => hj j hji _ (List.getElem?_eq_getElem _) (near_iff.1 e)
  unfold speedIndex
  rw [this]

theorem index_none {speeds : List ℝ} {speed : ℝ} (h : ∀ w ∈ speeds, ¬ Near w speed) :
    speedIndex speeds speed = .error .valueError := by
  have : speeds.findIdx? (fun a => @decide (IsClose a speed) (Classical.propDecidable _)) = none := by
    rw [List.findIdx?_eq_none_iff]
    intro w hw
    simpa using fun e => h w hw (near_iff.1 e)
  unfold speedIndex
  rw [this]

theorem first_exists {speeds : List ℝ} {speed : ℝ} (h : ∃ w ∈ speeds, Near w speed) :
    ∃ i < speeds.length, FirstNear speeds speed i := by
  classical
  obtain ⟨w, hw, hn⟩ := h
  have hex : ∃ (i : ℕ) (w : ℝ), speeds[i]? = some w ∧ Near w speed := by
    obtain ⟨i, hi⟩ := List.getElem?_of_mem hw
    exact ⟨i, w, hi, hn⟩
  obtain ⟨w', h1, h2⟩ := Nat.find_spec hex
  refine ⟨Nat.find hex, (List.getElem?_eq_some_iff.1 h1).1, ⟨w', h1, h2⟩, fun j hj w hw hn => ?_⟩
  exact Nat.find_min hex hj ⟨w, hw, hn⟩

theorem shaft_le (hw : WellFormed six N a) (h : init pd fuel a = some (.ok r)) :
    r.number_dof * (N + 1) ≤ r.ndof := by
  rw [(ndof_eq' hw h).2]
  unfold size
  omega

theorem lens_length (hw : WellFormed six N a) (h : init pd fuel a = some (.ok r)) :
    r.shaft_elements_length.length = N := by
  rw [(init_ok h).lens]
  unfold elementsLength
  rw [List.length_map, (full_of_wf hw h).groups_eq, List.length_range]

/-- A shape is drawn of the first near speed. -/
theorem deflected_ok (la : Lapack) (hw : WellFormed six N a) (h : init pd fuel a = some (.ok r))
    {resp : List (ForcedResp r.ndof)} {speeds : List ℝ} {speed : ℝ} {i : ℕ} {x : ForcedResp r.ndof} {k : RespKind}
    {f : ℝ} (hi : FirstNear speeds speed i) (hx : resp[i]? = some x) :
    ∃ s, r.deflected la resp speeds speed ⟨some k, f⟩ = .ok s ∧
      Shape.init la (List.ofFn fun j => (f : ℂ) * x.get k j) (List.range (N + 1)) r.nodes_pos r.shaft_elements_length
        r.number_dof = .ok s := by
  have hp := pos_length hw h
  obtain ⟨s, hs⟩ := ShapeLemmas.init_exists la (v := List.ofFn fun j => (f : ℂ) * x.get k j) (norm := false)
    (ndof_eq' hw h).1 hp (by rw [lens_length hw h]) rfl (by rw [List.length_ofFn]; exact shaft_le hw h)
  refine ⟨s, ?_, hs⟩
  unfold deflected responseAt
  rw [index_of hi]
  simp only [ShapeLemmas.ok_bind, hx, hp]
  exact hs

theorem max_exists {s : Shape} {N : ℕ} (hs : s.nodes = List.range (N + 1)) (hN : 0 < N) :
    ∃ m, maxMajor s = .ok m ∧ IsGreatest {x | ∃ i < 5 * N, s.major_axis i = x} m := by
  unfold maxMajor
  rw [hs, List.length_range, Nat.add_sub_cancel]
  cases hm : ((List.range (5 * N)).map s.major_axis).max? with
  | none =>
    rw [List.max?_eq_none_iff, List.map_eq_nil_iff, List.range_eq_nil] at hm
    omega
  | some m =>
    refine ⟨m, rfl, ?_⟩
    rw [List.max?_eq_some_iff] at hm
    obtain ⟨h1, h2⟩ := hm
    obtain ⟨i, hi, e⟩ := List.mem_map.1 h1
    refine ⟨⟨i, List.mem_range.1 hi, e⟩, ?_⟩
    rintro _ ⟨j, hj, rfl⟩
    exact h2 _ (List.mem_map.2 ⟨j, List.mem_range.2 hj, rfl⟩)

/-- Layers of equal length: the positions of the nodes fit the lengths of the elements. -/
theorem consecutive (hw : WellFormed six N a) (h : init pd fuel a = some (.ok r))
    (hL : ∀ e ∈ r.shaft, ∀ f ∈ r.shaft, e.s.n = f.s.n → e.s.L = f.s.L) :
    Consecutive r.nodes_pos r.shaft_elements_length := by
  have hf := full_of_wf hw h
  refine ⟨by rw [lens_length hw h, pos_length hw h], fun n x y l hx hy hl => ?_⟩
  have hn : n < N := by
    rw [← lens_length hw h]
    exact (List.getElem?_eq_some_iff.1 hl).1
  obtain ⟨e, he, hen⟩ := (hf.nodes n).2 hn
  have hsn : ∀ e ∈ r.shaft, e.s.n = some (nodeOf e) := by
    intro e he
    rw [(init_ok h).shaft] at he
    exact parts_sh_n he
  rw [layer_step hw h hL e he n x y (by rw [hsn e he, hen]) hx hy]
  congr 1
  rw [(init_ok h).lens] at hl
  unfold elementsLength at hl
  rw [hf.groups_eq, List.getElem?_map, List.getElem?_range hn] at hl
  simp only [Option.map_some, Option.some.injEq] at hl
  cases hm : ((r.shaft.filter fun e => nodeOf e = n).map fun e => e.s.L).min? with
  | none =>
    rw [List.min?_eq_none_iff, List.map_eq_nil_iff] at hm
    have : e ∈ r.shaft.filter fun e => nodeOf e = n := by simp [he, hen]
    rw [hm] at this
    cases this
  | some m =>
    rw [hm, Option.getD_some] at hl
    subst hl
    rw [List.min?_eq_some_iff] at hm
    obtain ⟨f, hf', hfm⟩ := List.mem_map.1 hm.1
    obtain ⟨hf1, hf2⟩ := List.mem_filter.1 hf'
    rw [← hfm]
    apply hL e he f hf1
    rw [hsn e he, hsn f hf1, hen, of_decide_eq_true hf2]

end Ross.DeflectedLemmas
