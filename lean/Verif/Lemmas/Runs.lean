import Verif.Lemmas.ListRes
import Verif.Lemmas.Rotor
import Verif.Spec.Runs

/-! # Lemmas on the analyses that repeat modal analyses -/

namespace Ross.RunLemmas

open Ross Rotor Ross.Spec

theorem bindOk {α β : Type} {x : Res α} {f : α → Res β} {b : β} (h : (x >>= f) = .ok b) :
    ∃ a, x = .ok a ∧ f a = .ok b := by
  cases x with
  | error e => cases h
  | ok a => exact ⟨a, rfl, h⟩

/-- Entries of a list built by a loop. -/
theorem mapM_get {α β : Type} {f : α → Res β} {l : List α} {r : List β} (h : l.mapM f = .ok r) :
    r.length = l.length ∧ ∀ (i : ℕ) a b, l[i]? = some a → r[i]? = some b → f a = .ok b := by
  rw [mapM_ok_iff] at h
  have hl : r.length = l.length := by simpa using (congrArg List.length h).symm
  refine ⟨hl, fun i a b ha hb => ?_⟩
  have := congrArg (fun t => t[i]?) h
  simp only [List.getElem?_map, ha, hb, Option.map_some] at this
  exact Option.some.inj this

theorem mapM_get' {α β : Type} {f : α → Res β} {l : List α} {r : List β} (h : l.mapM f = .ok r) {i : ℕ} {b : β}
    (hb : r[i]? = some b) : ∃ a, l[i]? = some a ∧ f a = .ok b := by
  obtain ⟨h1, h2⟩ := mapM_get h
  have hi : i < l.length := by
    rw [← h1]; exact (List.getElem?_eq_some_iff.1 hb).1
  exact ⟨l[i], List.getElem?_eq_getElem hi, h2 i _ _ (List.getElem?_eq_getElem hi) hb⟩

theorem item_ok {α : Type} {l : List α} {i : ℕ} {a : α} : item l i = .ok a ↔ l[i]? = some a := by
  unfold item
  cases l[i]? with
  | none => simp
  | some b => simp

/-- All arrays of an analysis have the same length. -/
theorem modes_lengths {env : RunEnv} {r : Rotor} {s : ℝ} {n : ℕ} {syn : Bool} {m : Modes} (h : r.modes env s n syn = .ok m) :
    m.wd.length = m.wn.length ∧ m.damping_ratio.length = m.wn.length ∧ m.log_dec.length = m.wn.length ∧
      m.whirl.length = m.wn.length ∧ m.wn.length ≤ n / 2 := by
  unfold modes at h
  obtain ⟨m1, h1, h⟩ := bindOk h
  obtain ⟨l, h2, h⟩ := bindOk h
  have h := Except.ok.inj h
  rw [← h]
  clear h
  unfold run_modal at h1
  obtain ⟨p, h3, h1⟩ := bindOk h1
  have h1 := Except.ok.inj h1
  unfold ModalResults.shapes at h2
  have hl := (mapM_get h2).1
  rw [List.length_range] at hl
  rw [← h1] at hl ⊢
  refine ⟨by simp, by simp, by simp, ?_, by simp⟩
  simp only [ModalResults.whirl_direction, List.length_map]
  exact hl

/-- The secant in terms of frequencies. -/
theorem chord {a b wa wb x : ℝ} (hab : a ≠ b) (hne : a - wa ≠ b - wb)
    (h : ((b - wb) - (a - wa)) * (x - b) = -(b - wb) * (b - a)) : ChordMeets a wa b wb x := by
  have hd : b - a ≠ 0 := sub_ne_zero.2 (Ne.symm hab)
  refine ⟨hab, ?_, ?_⟩
  · intro h1
    rw [div_eq_one_iff_eq hd] at h1
    exact hne (by linarith)
  · field_simp
    linarith

/-- What the search for a speed returns. -/
theorem findSpeed_ok {env : RunEnv} (hn : NewtonOk env.newton) {r : Rotor} {n : ℕ} {rtol : ℝ} {w : Modes → List ℝ} {i : ℕ}
    {w0 x : ℝ} (h : r.findSpeed env n rtol w i w0 = .ok x) :
    ∃ a wa b wb, FrequencyAt env r n w i a wa ∧ FrequencyAt env r n w i b wb ∧ ChordMeets a wa b wb x ∧
      |x - b| ≤ 1.48e-8 + rtol * |b| := by
  obtain ⟨a, b, fa, fb, ha, hb, hne, hx, ht⟩ := hn.secant _ _ _ _ h
  have hab : a ≠ b := by
    rintro rfl
    rw [ha] at hb
    exact hne (Except.ok.inj hb)
  obtain ⟨ma, h1, ha⟩ := bindOk ha
  obtain ⟨wa, h2, ha⟩ := bindOk ha
  obtain ⟨mb, h3, hb⟩ := bindOk hb
  obtain ⟨wb, h4, hb⟩ := bindOk hb
  obtain rfl := Except.ok.inj ha
  obtain rfl := Except.ok.inj hb
  exact ⟨a, wa, b, wb, ⟨ma, h1, item_ok.1 h2⟩, ⟨mb, h3, item_ok.1 h4⟩, chord hab hne hx, ht⟩

/-- What the rows of the critical speeds are. -/
theorem criticalRows_ok {env : RunEnv} {r : Rotor} {n : ℕ} {rtol : ℝ} {l : List CriticalRow}
    (h : r.criticalRows env n rtol = .ok l) :
    ∃ m0, r.modes env 0 n = .ok m0 ∧ l.length = m0.wn.length ∧ ∀ (i : ℕ) x, l[i]? = some x →
      (∃ w0, m0.wn[i]? = some w0 ∧ r.findSpeed env n rtol Modes.wn i w0 = .ok x.wn) ∧
      (∃ w0, m0.wd[i]? = some w0 ∧ r.findSpeed env n rtol Modes.wd i w0 = .ok x.wd) ∧
      r.criticalRow env n i x.wn x.wd = .ok x := by
  unfold criticalRows at h
  obtain ⟨m0, h0, h⟩ := bindOk h
  obtain ⟨wn, h1, h⟩ := bindOk h
  obtain ⟨wd, h2, h⟩ := bindOk h
  have e1 := (mapM_get h1).1
  have e2 := (mapM_get h2).1
  have e3 := (mapM_get h).1
  have hl := modes_lengths h0
  simp only [List.length_zipIdx, List.length_zip] at e1 e2 e3
  refine ⟨m0, h0, by omega, fun i x hx => ?_⟩
  obtain ⟨q, hq, hr⟩ := mapM_get' h hx
  rw [List.getElem?_zipIdx] at hq
  simp only [Option.map_eq_some_iff, Nat.zero_add] at hq
  obtain ⟨⟨u, v⟩, huv, rfl⟩ := hq
  rw [List.getElem?_zip_eq_some] at huv
  obtain ⟨hu, hv⟩ := huv
  have hxu : x.wn = u ∧ x.wd = v := by
    unfold criticalRow at hr
    obtain ⟨_, _, hr⟩ := bindOk hr
    obtain ⟨_, _, hr⟩ := bindOk hr
    obtain ⟨_, _, hr⟩ := bindOk hr
    obtain ⟨_, _, hr⟩ := bindOk hr
    obtain rfl := Except.ok.inj hr
    exact ⟨rfl, rfl⟩
  obtain ⟨rfl, rfl⟩ := hxu
  refine ⟨?_, ?_, hr⟩
  · obtain ⟨q, hq, hf⟩ := mapM_get' h1 hu
    rw [List.getElem?_zipIdx] at hq
    simp only [Option.map_eq_some_iff, Nat.zero_add] at hq
    obtain ⟨w0, hw, rfl⟩ := hq
    exact ⟨w0, hw, hf⟩
  · obtain ⟨q, hq, hf⟩ := mapM_get' h2 hv
    rw [List.getElem?_zipIdx] at hq
    simp only [Option.map_eq_some_iff, Nat.zero_add] at hq
    obtain ⟨w0, hw, rfl⟩ := hq
    exact ⟨w0, hw, hf⟩

/-- The sorted eigenvalues are as many as before, and come in pairs. -/
theorem sorted_length {N : ℕ} {l p : List (Pair N)} (h : sorted l = .ok p) : p.length = l.length ∧ 2 ≤ l.length := by
  unfold sorted at h
  obtain ⟨idx, h1, h⟩ := bindOk h
  split_ifs at h with hne
  have h := Except.ok.inj h
  unfold index at h1
  dsimp only at h1
  split_ifs at h1 with hlen
  have h1 := Except.ok.inj h1
  have hs : (lexsort (l.map Prod.fst)).length = l.length := by
    unfold lexsort
    rw [List.length_mergeSort, List.length_range, List.length_map]
  have hpos : 0 < l.length := List.length_pos_iff.2 hne
  simp only [List.length_drop, List.length_take, hs, List.length_map] at hlen
  refine ⟨?_, by omega⟩
  rw [← h, List.length_map, ← h1]
  simp only [List.length_append, List.length_drop, List.length_take, hs, List.length_map]
  omega

/-- An analysis gives at least two modes, unless fewer are asked for. -/
theorem modes_two {env : RunEnv} {r : Rotor} {s : ℝ} {n : ℕ} {syn : Bool} {m : Modes} (h : r.modes env s n syn = .ok m) :
    min 2 (n / 2) ≤ m.wn.length := by
  unfold modes at h
  obtain ⟨m1, h1, h⟩ := bindOk h
  obtain ⟨l, h2, h⟩ := bindOk h
  have h := Except.ok.inj h
  rw [← h]
  clear h
  unfold run_modal at h1
  obtain ⟨p, h3, h1⟩ := bindOk h1
  have h1 := Except.ok.inj h1
  unfold eigen at h3
  obtain ⟨A, h4, h3⟩ := bindOk h3
  simp only [if_true] at h3
  obtain ⟨h5, h6⟩ := sorted_length h3
  rw [← h1]
  simp only [List.length_take, List.length_map]
  omega

theorem fill_ok {α : Type} {n : ℕ} {l p : List α} (h : fill n l = .ok p) :
    p.length = n ∧ ((l.length = n ∧ p = l) ∨ (l.length ≠ n ∧ ∃ x, l = [x] ∧ p = List.replicate n x)) := by
  unfold fill at h
  split_ifs at h with hl
  · obtain rfl := Except.ok.inj h
    exact ⟨hl, .inl ⟨hl, rfl⟩⟩
  · match l, h with
    | [x], h =>
      obtain rfl := Except.ok.inj h
      exact ⟨by simp, .inr ⟨hl, x, rfl, rfl⟩⟩

theorem setKey_lookup (d : List (ℝ × Modes)) (w : ℝ) (m : Modes) (v : ℝ) :
    (setKey d w m).lookup v = if v = w then some m else d.lookup v := by
  classical
  unfold setKey
  split_ifs with h1 h2 h2
  · subst h2
    induction d with
    | nil => simp at h1
    | cons y t ih =>
      obtain ⟨a, x⟩ := y
      by_cases hx : a = v
      · simp [hx]
      · have hx' : (v == a) = false := by simpa using fun h => hx h.symm
        simp only [List.map_cons, hx, if_false, List.lookup_cons, hx']
        refine ih ?_
        simpa [Ne.symm hx] using h1
  · induction d with
    | nil => rfl
    | cons y t ih =>
      obtain ⟨a, x⟩ := y
      by_cases hx : a = w
      · have e1 : (v == w) = false := by simpa using h2
        have e2 : (v == a) = false := by rw [hx]; exact e1
        simp only [List.map_cons, hx, if_true, List.lookup_cons, e1]
        by_cases hw : w ∈ t.map Prod.fst
        · exact ih hw
        · congr 1
          rw [List.map_congr_left (g := id) fun z hz => ?_, List.map_id]
          rw [if_neg]
          · rfl
          · intro h
            exact hw (List.mem_map.2 ⟨z, hz, h⟩)
      · simp only [List.map_cons, hx, if_false, List.lookup_cons]
        cases (v == a)
        · refine ih ?_
          simpa [Ne.symm hx] using h1
        · rfl
  · subst h2
    rw [List.lookup_append]
    have : d.lookup v = none := by
      rw [List.lookup_eq_none_iff]
      intro p hp
      simpa using fun h => h1 (List.mem_map.2 ⟨p, hp, h.symm⟩)
    simp [this]
  · rw [List.lookup_append]
    have : (v == w) = false := by simpa using h2
    simp [List.lookup_cons, this]

theorem setKey_keys (d : List (ℝ × Modes)) (w : ℝ) (m : Modes) :
    (setKey d w m).map Prod.fst = if w ∈ d.map Prod.fst then d.map Prod.fst else d.map Prod.fst ++ [w] := by
  classical
  unfold setKey
  split_ifs with h1
  · rw [List.map_map]
    refine List.map_congr_left fun x _ => ?_
    simp only [Function.comp_apply]
    split_ifs with h
    · exact h.symm
    · rfl
  · simp

end Ross.RunLemmas
