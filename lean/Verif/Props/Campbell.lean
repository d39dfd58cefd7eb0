import Verif.Lemmas.RunsEx

/-! # C87: Campbell diagrams -/

namespace Ross.Props

open Ross Rotor Ross.Spec Ross.RunLemmas

variable {env : RunEnv} {r : Rotor} {speeds : List ℝ} {f : ℕ} {type : String} {c : Campbell}

theorem campbell_ok (h : r.run_campbell env speeds f type = .ok c) :
    ∃ l : List (ℝ × Modes × CampbellRow), l.map Prod.fst = speeds ∧ c.speed_range = speeds ∧
      c.rows = l.map (fun x => x.2.2) ∧ c.modal_results = l.foldl (fun d x => setKey d x.1 x.2.1) [] ∧
      ∀ x ∈ l, r.modes env x.1 (2 * f) = .ok x.2.1 ∧ campbellRow env f type x.2.1 = .ok x.2.2 := by
  unfold run_campbell at h
  split_ifs at h with hc
  obtain ⟨l, h1, h⟩ := bindOk h
  obtain rfl := Except.ok.inj h
  have hstep : ∀ w x, (do
      let m ← r.modes env w (2 * f)
      let row ← campbellRow env f type m
      pure (w, m, row) : Res (ℝ × Modes × CampbellRow)) = .ok x →
      x.1 = w ∧ r.modes env w (2 * f) = .ok x.2.1 ∧ campbellRow env f type x.2.1 = .ok x.2.2 := by
    intro w x hx
    obtain ⟨m, e1, hx⟩ := bindOk hx
    obtain ⟨row, e2, hx⟩ := bindOk hx
    obtain rfl := Except.ok.inj hx
    exact ⟨rfl, e1, e2⟩
  refine ⟨l, ?_, rfl, rfl, rfl, fun x hx => ?_⟩
  · refine List.ext_getElem? fun i => ?_
    rw [List.getElem?_map]
    cases hi : l[i]? with
    | none =>
      have : speeds.length ≤ i := by
        rw [← (mapM_get h1).1]; exact List.getElem?_eq_none_iff.1 hi
      simp [this]
    | some x =>
      obtain ⟨w, hw, hf⟩ := mapM_get' h1 hi
      rw [hw, Option.map_some, (hstep w x hf).1]
  · obtain ⟨i, hi⟩ := List.mem_iff_getElem?.1 hx
    obtain ⟨w, hw, hf⟩ := mapM_get' h1 hi
    obtain ⟨e1, e2, e3⟩ := hstep w x hf
    rw [e1]
    exact ⟨e2, e3⟩

/-- As many modes as columns, if a row can be filled. -/
theorem campbell_count {w : ℝ} {m : Modes} {row : CampbellRow} (h1 : r.modes env w (2 * f) = .ok m)
    (h2 : campbellRow env f type m = .ok row) : m.wn.length = f := by
  unfold campbellRow at h2
  obtain ⟨row', -, h2⟩ := bindOk h2
  obtain ⟨x, hx, -⟩ := bindOk h2
  obtain ⟨-, hl⟩ := fill_ok hx
  have e1 := (modes_lengths h1).2.2.2.2
  have e2 := modes_two h1
  rw [List.length_take] at hl
  rcases hl with ⟨hl, -⟩ | ⟨hl, y, hy, -⟩
  · omega
  · have := congrArg List.length hy
    rw [List.length_take, List.length_singleton] at this
    omega

/-- **C87** the diagram has one row per speed, in the order given; row `i` belongs to the analysis at speed `i` for twice
as many modes as there are columns, and has all its entries. -/
theorem C87_rows (h : r.run_campbell env speeds f type = .ok c) :
    c.speed_range = speeds ∧ c.rows.length = speeds.length ∧
    ∀ (i : ℕ) w, speeds[i]? = some w → ∃ m row, r.modes env w (2 * f) = .ok m ∧ c.rows[i]? = some row ∧
      m.wn.length = f ∧ row.wd.length = f ∧ row.log_dec.length = f ∧ row.damping_ratio.length = f ∧
      row.whirl_values.length = f ∧ campbellRow env f type m = .ok row := by
  obtain ⟨l, h1, h2, h3, -, h5⟩ := campbell_ok h
  refine ⟨h2, by rw [h3, ← h1]; simp, fun i w hw => ?_⟩
  rw [← h1, List.getElem?_map, Option.map_eq_some_iff] at hw
  obtain ⟨x, hx, rfl⟩ := hw
  obtain ⟨e1, e2⟩ := h5 x (List.mem_of_getElem? hx)
  have hlen : x.2.2.wd.length = f ∧ x.2.2.log_dec.length = f ∧ x.2.2.damping_ratio.length = f ∧
      x.2.2.whirl_values.length = f := by
    have h2 := e2
    unfold campbellRow at h2
    obtain ⟨row', hr, h2⟩ := bindOk h2
    obtain ⟨_, -, h2⟩ := bindOk h2
    obtain rfl := Except.ok.inj h2
    unfold eitherRow at hr
    split_ifs at hr with ht
    · unfold dampedRow at hr
      obtain ⟨a, ha, hr⟩ := bindOk hr
      obtain ⟨b, hb, hr⟩ := bindOk hr
      obtain ⟨d, hd, hr⟩ := bindOk hr
      obtain ⟨v, hv, hr⟩ := bindOk hr
      rw [← Except.ok.inj hr]
      exact ⟨(fill_ok ha).1, (fill_ok hb).1, (fill_ok hd).1, (fill_ok hv).1⟩
    · unfold naturalRow at hr
      dsimp only at hr
      obtain ⟨_, -, hr⟩ := bindOk hr
      obtain ⟨_, -, hr⟩ := bindOk hr
      obtain ⟨_, -, hr⟩ := bindOk hr
      obtain ⟨_, -, hr⟩ := bindOk hr
      obtain ⟨a, ha, hr⟩ := bindOk hr
      obtain ⟨b, hb, hr⟩ := bindOk hr
      obtain ⟨d, hd, hr⟩ := bindOk hr
      obtain ⟨v, hv, hr⟩ := bindOk hr
      rw [← Except.ok.inj hr]
      exact ⟨(fill_ok ha).1, (fill_ok hb).1, (fill_ok hd).1, (fill_ok hv).1⟩
  exact ⟨x.2.1, x.2.2, e1, by rw [h3, List.getElem?_map, hx, Option.map_some], campbell_count e1 e2, hlen.1, hlen.2.1,
    hlen.2.2.1, hlen.2.2.2, e2⟩

theorem fill_same {α : Type} {l p : List α} (hl : l.length = n) (h : fill n (l.take n) = .ok p) : p = l := by
  have e : l.take n = l := List.take_of_length_le hl.le
  rw [e] at h
  unfold fill at h
  rw [if_pos hl] at h
  exact (Except.ok.inj h).symm

/-- **C87** with damped frequencies, column `j` of the row of a speed describes mode `j` of the analysis at that speed: its
damped frequency, logarithmic decrement, damping ratio and whirl. -/
theorem C87_damped (h : r.run_campbell env speeds f "wd" = .ok c) {i : ℕ} {w : ℝ} (hw : speeds[i]? = some w) :
    ∃ m row, r.modes env w (2 * f) = .ok m ∧ c.rows[i]? = some row ∧ ∀ j < f, ColumnOf m.wd m row j j := by
  obtain ⟨m, row, h1, h2, hf, -, -, -, -, h3⟩ := (C87_rows h).2.2 i w hw
  refine ⟨m, row, h1, h2, fun j hj => ?_⟩
  obtain ⟨l1, l2, l3, l4, -⟩ := modes_lengths h1
  unfold campbellRow at h3
  obtain ⟨row', hr, h3⟩ := bindOk h3
  obtain ⟨_, -, h3⟩ := bindOk h3
  obtain rfl := Except.ok.inj h3
  unfold eitherRow at hr
  rw [if_pos rfl] at hr
  unfold dampedRow at hr
  obtain ⟨a, ha, hr⟩ := bindOk hr
  obtain ⟨b, hb, hr⟩ := bindOk hr
  obtain ⟨d, hd, hr⟩ := bindOk hr
  obtain ⟨v, hv, hr⟩ := bindOk hr
  rw [← Except.ok.inj hr]
  obtain rfl := fill_same (by omega) ha
  obtain rfl := fill_same (by omega) hb
  obtain rfl := fill_same (by omega) hd
  obtain rfl := fill_same (by simp; omega) hv
  have j1 : j < m.wd.length := by omega
  have j2 : j < m.log_dec.length := by omega
  have j3 : j < m.damping_ratio.length := by omega
  have j4 : j < m.whirl.length := by omega
  refine ⟨m.wd[j], m.log_dec[j], m.damping_ratio[j], m.whirl[j], ?_⟩
  simp [j1, j2, j3, j4]

theorem atIdx_get {l : List ℝ} {idx : List ℕ} {p : List ℝ} (h : atIdx l idx = .ok p) {j k : ℕ} (hk : idx[j]? = some k)
    (hl : k < l.length) : p[j]? = l[k]? := by
  unfold atIdx at h
  obtain ⟨e1, e2⟩ := mapM_get h
  have hj : j < p.length := by rw [e1]; exact (List.getElem?_eq_some_iff.1 hk).1
  have := e2 j k p[j] hk (List.getElem?_eq_getElem hj)
  rw [item_ok] at this
  rw [this, List.getElem?_eq_getElem hj]

/-- **C87** with natural frequencies, the columns describe the same modes, put into increasing order of natural
frequency. -/
theorem C87_undamped (ha : ArgsortOk env.argsort) (ht : type ≠ "wd") (h : r.run_campbell env speeds f type = .ok c) {i : ℕ}
    {w : ℝ} (hw : speeds[i]? = some w) :
    ∃ m row, ∃ order : List ℕ, r.modes env w (2 * f) = .ok m ∧ c.rows[i]? = some row ∧ order.Perm (List.range f) ∧
      row.wd.Pairwise (· ≤ ·) ∧ ∀ j < f, ∃ k, order[j]? = some k ∧ ColumnOf m.wn m row j k := by
  obtain ⟨m, row, h1, h2, hf, -, -, -, -, h3⟩ := (C87_rows h).2.2 i w hw
  obtain ⟨l1, l2, l3, l4, -⟩ := modes_lengths h1
  unfold campbellRow at h3
  obtain ⟨row', hr, h3⟩ := bindOk h3
  obtain ⟨_, -, h3⟩ := bindOk h3
  obtain rfl := Except.ok.inj h3
  unfold eitherRow at hr
  rw [if_neg ht] at hr
  unfold naturalRow at hr
  dsimp only at hr
  obtain ⟨a', ha', hr⟩ := bindOk hr
  obtain ⟨b', hb', hr⟩ := bindOk hr
  obtain ⟨d', hd', hr⟩ := bindOk hr
  obtain ⟨v', hv', hr⟩ := bindOk hr
  obtain ⟨a, ha1, hr⟩ := bindOk hr
  obtain ⟨b, hb, hr⟩ := bindOk hr
  obtain ⟨d, hd, hr⟩ := bindOk hr
  obtain ⟨v, hv, hr⟩ := bindOk hr
  obtain rfl := Except.ok.inj hr
  have hp := ha.perm m.wn
  have hlen : (env.argsort m.wn).length = f := by rw [hp.length_eq, List.length_range, hf]
  have e1 : a'.length = f := by rw [← hlen]; exact (mapM_get ha').1
  have e2 : b'.length = f := by rw [← hlen]; exact (mapM_get hb').1
  have e3 : d'.length = f := by rw [← hlen]; exact (mapM_get hd').1
  have e4 : v'.length = f := by rw [← hlen]; exact (mapM_get hv').1
  obtain rfl := fill_same e1 ha1
  obtain rfl := fill_same e2 hb
  obtain rfl := fill_same e3 hd
  obtain rfl := fill_same e4 hv
  have hlt : ∀ k ∈ env.argsort m.wn, k < f := fun k hk => by
    rw [← hf]; exact List.mem_range.1 (hp.mem_iff.1 hk)
  refine ⟨m, _, env.argsort m.wn, h1, h2, hf ▸ hp, ?_, fun j hj => ?_⟩
  · have : a = (env.argsort m.wn).map fun i => m.wn.getD i 0 := by
      refine List.ext_getElem? fun j => ?_
      rw [List.getElem?_map]
      cases hk : (env.argsort m.wn)[j]? with
      | none =>
        have : f ≤ j := by rw [← hlen]; exact List.getElem?_eq_none_iff.1 hk
        simp [e1, this]
      | some k =>
        have hkl : k < m.wn.length := by rw [hf]; exact hlt k (List.mem_of_getElem? hk)
        rw [atIdx_get ha' hk hkl, Option.map_some, List.getD_eq_getElem?_getD, List.getElem?_eq_getElem hkl]
        rfl
    show a.Pairwise _
    rw [this]
    exact ha.sorted m.wn
  · have hj' : j < (env.argsort m.wn).length := by omega
    have hk := List.getElem?_eq_getElem hj'
    refine ⟨_, hk, ?_⟩
    have hkl := hlt _ (List.getElem_mem hj')
    generalize (env.argsort m.wn)[j] = k at hk hkl
    have j1 : k < m.wn.length := by omega
    have j2 : k < m.log_dec.length := by omega
    have j3 : k < m.damping_ratio.length := by omega
    have j4 : k < m.whirl.length := by omega
    refine ⟨m.wn[k], m.log_dec[k], m.damping_ratio[k], m.whirl[k], by simp [j1], by simp [j2], by simp [j3], by simp [j4],
      ?_, ?_, ?_, ?_⟩
    · show a[j]? = _
      rw [atIdx_get ha' hk j1]; simp [j1]
    · show b[j]? = _
      rw [atIdx_get hb' hk j2]; simp [j2]
    · show d[j]? = _
      rw [atIdx_get hd' hk j3]; simp [j3]
    · show v[j]? = _
      rw [atIdx_get hv' hk (by simpa using j4)]; simp [j4]

/-- **C87** the stored analyses are those of the speeds of the diagram, one for each different speed. -/
theorem C87_modal (h : r.run_campbell env speeds f type = .ok c) :
    (c.modal_results.map Prod.fst).Nodup ∧ (∀ w, w ∈ c.modal_results.map Prod.fst ↔ w ∈ speeds) ∧
    ∀ w ∈ speeds, ∃ m, c.modal_results.lookup w = some m ∧ r.modes env w (2 * f) = .ok m := by
  obtain ⟨l, h1, -, -, h4, h5⟩ := campbell_ok h
  rw [h4, ← h1]
  have key : ∀ l : List (ℝ × Modes × CampbellRow), (∀ x ∈ l, r.modes env x.1 (2 * f) = .ok x.2.1) →
      ((l.foldl (fun d x => setKey d x.1 x.2.1) []).map Prod.fst).Nodup ∧
      (∀ w, w ∈ (l.foldl (fun d x => setKey d x.1 x.2.1) []).map Prod.fst ↔ w ∈ l.map Prod.fst) ∧
      ∀ w ∈ l.map Prod.fst, ∃ m, (l.foldl (fun d x => setKey d x.1 x.2.1) []).lookup w = some m ∧
        r.modes env w (2 * f) = .ok m := by
    intro l
    induction l using List.reverseRecOn with
    | nil => intro _; simp
    | append_singleton t x ih =>
      intro hm
      obtain ⟨i1, i2, i3⟩ := ih fun y hy => hm y (List.mem_append_left _ hy)
      rw [List.foldl_append]
      simp only [List.foldl_cons, List.foldl_nil]
      refine ⟨?_, fun w => ?_, fun w hw => ?_⟩
      · rw [setKey_keys]
        split_ifs with hc
        · exact i1
        · rw [List.nodup_append]
          exact ⟨i1, by simp, fun a ha b hb => by
            simp at hb; rw [hb]; exact fun e => hc (e ▸ ha)⟩
      · rw [setKey_keys]
        split_ifs with hc
        · rw [i2 w, List.map_append, List.mem_append]
          refine ⟨.inl, ?_⟩
          rintro (h | h)
          · exact h
          · simp at h; rw [h]; exact (i2 x.1).1 hc
        · rw [List.mem_append, List.map_append, List.mem_append, i2 w]
          simp
      · rw [setKey_lookup]
        by_cases hwx : w = x.1
        · rw [if_pos hwx]
          exact ⟨x.2.1, rfl, hwx ▸ hm x (by simp)⟩
        · rw [if_neg hwx]
          refine i3 w ?_
          rw [List.map_append, List.mem_append] at hw
          rcases hw with hw | hw
          · exact hw
          · simp at hw; exact absurd hw hwx
  exact key l fun x hx => (h5 x hx).1

/-- **C87** the row of a speed does not depend on the other speeds of the diagram. -/
theorem C87_independent {speeds' : List ℝ} {c' : Campbell} (h : r.run_campbell env speeds f type = .ok c)
    (h' : r.run_campbell env speeds' f type = .ok c') {i j : ℕ} {w : ℝ} (hi : speeds[i]? = some w)
    (hj : speeds'[j]? = some w) : c.rows[i]? = c'.rows[j]? := by
  obtain ⟨m, row, h1, h2, -, -, -, -, -, h3⟩ := (C87_rows h).2.2 i w hi
  obtain ⟨m', row', h1', h2', -, -, -, -, -, h3'⟩ := (C87_rows h').2.2 j w hj
  rw [h1] at h1'
  obtain rfl := Except.ok.inj h1'
  rw [h3] at h3'
  rw [h2, h2', Except.ok.inj h3']

/-- **C87** a speed at which the analysis finds fewer modes than columns makes the whole run raise. -/
theorem C87_few {w : ℝ} (hw : w ∈ speeds) {m : Modes} (hm : r.modes env w (2 * f) = .ok m) (hf : m.wn.length ≠ f) :
    ∃ e, r.run_campbell env speeds f type = .error e := by
  cases h : r.run_campbell env speeds f type with
  | error e => exact ⟨e, rfl⟩
  | ok c =>
    obtain ⟨i, hi⟩ := List.mem_iff_getElem?.1 hw
    obtain ⟨m', row, h1, -, h3, -⟩ := (C87_rows h).2.2 i w hi
    rw [hm] at h1
    exact absurd (by rw [Except.ok.inj h1]; exact h3) hf

/-- Sorting of indices. -/
theorem argsort_exists : ∃ a, ArgsortOk a := by
  classical
  refine ⟨fun l => (List.range l.length).mergeSort fun i j => decide (l.getD i 0 ≤ l.getD j 0),
    ⟨fun l => List.mergeSort_perm _ _, fun l => ?_⟩⟩
  rw [List.pairwise_map]
  have := List.pairwise_mergeSort (le := fun i j : ℕ => decide (l.getD i 0 ≤ l.getD j 0))
    (fun a b c h1 h2 => by simp only [decide_eq_true_eq] at *; exact h1.trans h2)
    (fun a b => by simpa using le_total _ _) (List.range l.length)
  exact this.imp fun h => by simpa using h

/-- Diagrams of a rotor with one shaft element and two bearings, of damped and of natural frequencies. -/
theorem campbell_two : ∃ env r c c', ArgsortOk env.argsort ∧ Rotor.init env.pd env.fuel (twoArgs 0 0) = some (.ok r) ∧
    r.run_campbell env [0, 50, 50, 100] 2 "wd" = .ok c ∧ r.run_campbell env [100] 2 "wn" = .ok c' ∧
    c.rows.map CampbellRow.wd = [[100, -100], [100, -100], [100, -100], [100, -100]] ∧
    c'.rows.map CampbellRow.wd = [[100, 100]] := by
  obtain ⟨r, h1, h2, h3, h4, h5, h6⟩ := two_small
  obtain ⟨as, has⟩ := argsort_exists
  let env : RunEnv := ⟨⟨fun _ _ => none, fun _ _ _ => none⟩, onePair, RotorLemmas.exPandas, 10, secant, as⟩
  have key : ∀ s, ∃ m, r.modes env s 4 = .ok m ∧ m.wn = [100, 100] ∧ m.wd = [100, -100] := fun s => by
    obtain ⟨m, e1, e2, e3⟩ := modes_onePair (env := env) rfl (n := 4) (h6 s) h2 h3 h4 h5
    exact ⟨m, e1, by simpa using e2, by simpa using e3⟩
  have two : ∀ {α : Type} (l : List α), l.length = 2 → fill 2 (l.take 2) = .ok l := by
    intro α l hl
    rw [List.take_of_length_le hl.le]
    unfold fill
    rw [if_pos hl]
  have hd : ∀ s, ∃ m row, r.modes env s 4 = .ok m ∧ campbellRow env 2 "wd" m = .ok row ∧ row.wd = [100, -100] := by
    intro s
    obtain ⟨m, e1, e2, e3⟩ := key s
    obtain ⟨l1, l2, l3, l4, -⟩ := modes_lengths e1
    rw [e2] at l1 l2 l3 l4
    refine ⟨m, ⟨m.wd, m.log_dec, m.damping_ratio, m.whirl.map ModalResults.whirl_to_cmap⟩, e1, ?_, e3⟩
    unfold campbellRow eitherRow dampedRow
    rw [if_pos rfl, two _ l1, two _ l3, two _ l2, two _ (by simpa using l4), two m.wn (by rw [e2]; rfl)]
    rfl
  have hidx : ∀ (l : List ℝ) (a : List ℕ), a.Perm [0, 1] → l.length = 2 → ∃ p, atIdx l a = .ok p ∧ p.length = 2 := by
    intro l a ha hl
    obtain ⟨x, y, rfl⟩ := List.length_eq_two.1 hl
    rcases List.perm_pair.1 ha with rfl | rfl
    · exact ⟨[x, y], rfl, rfl⟩
    · exact ⟨[y, x], rfl, rfl⟩
  have hn : ∀ s, ∃ m row, r.modes env s 4 = .ok m ∧ campbellRow env 2 "wn" m = .ok row ∧ row.wd = [100, 100] := by
    intro s
    obtain ⟨m, e1, e2, e3⟩ := key s
    obtain ⟨l1, l2, l3, l4, -⟩ := modes_lengths e1
    rw [e2] at l1 l2 l3 l4
    have hp : (as m.wn).Perm [0, 1] := by
      have := has.perm m.wn
      rw [e2] at this ⊢
      exact this
    have ha : atIdx m.wn (as m.wn) = .ok [100, 100] := by
      rw [e2] at hp ⊢
      rcases List.perm_pair.1 hp with h | h <;> rw [h] <;> rfl
    obtain ⟨b, hb, hb'⟩ := hidx m.log_dec _ hp l3
    obtain ⟨d, hd, hd'⟩ := hidx m.damping_ratio _ hp l2
    obtain ⟨v, hv, hv'⟩ := hidx (m.whirl.map ModalResults.whirl_to_cmap) _ hp (by simpa using l4)
    refine ⟨m, ⟨[100, 100], b, d, v⟩, e1, ?_, rfl⟩
    unfold campbellRow eitherRow naturalRow
    rw [if_neg (by decide)]
    dsimp only
    rw [show env.argsort = as from rfl, ha, hb, hd, hv]
    simp only [bind, Except.bind]
    rw [two [100, 100] rfl, two _ hb', two _ hd', two _ hv', two m.wn (by rw [e2]; rfl)]
    rfl
  have htab : ∀ (l : List ℝ), l ≠ [] → ¬ (l = [] ∧ r.bearings.any (fun b => (brgFrequency b).isSome)) := fun l hl h => hl h.1
  obtain ⟨m0, w0, a0, b0, c0⟩ := hd 0
  obtain ⟨m1, w1, a1, b1, c1⟩ := hd 50
  obtain ⟨m2, w2, a2, b2, c2⟩ := hd 100
  obtain ⟨m3, w3, a3, b3, c3⟩ := hn 100
  have g1 : ∃ c, r.run_campbell env [0, 50, 50, 100] 2 "wd" = .ok c ∧ c.rows = [w0, w1, w1, w2] := by
    unfold run_campbell
    rw [if_neg (htab _ (by simp))]
    simp only [List.mapM_cons, List.mapM_nil, a0, a1, a2, b0, b1, b2, bind, Except.bind, pure, Except.pure]
    exact ⟨_, rfl, rfl⟩
  have g2 : ∃ c, r.run_campbell env [100] 2 "wn" = .ok c ∧ c.rows = [w3] := by
    unfold run_campbell
    rw [if_neg (htab _ (by simp))]
    simp only [List.mapM_cons, List.mapM_nil, a3, b3, bind, Except.bind, pure, Except.pure]
    exact ⟨_, rfl, rfl⟩
  obtain ⟨d1, g1, g1'⟩ := g1
  obtain ⟨d2, g2, g2'⟩ := g2
  exact ⟨env, r, d1, d2, has, h1, g1, g2, by simp [g1', c0, c1, c2], by simp [g2', c3]⟩

end Ross.Props
