import Verif.Lemmas.RunsWhirl

/-! # C89: level 1 stability analysis -/

namespace Ross.Props

open Ross Rotor Ross.Spec Ross.RunLemmas Ross.RotorLemmas

variable {env : RunEnv} {r : Rotor} {n num : ℕ} {res : Level1}

/-- **C89** the values of the cross-coupled stiffness are evenly spaced over the range, and there is one logarithmic
decrement for each. -/
theorem C89_shape {a b : ℝ} (h : r.run_level1 env n (some (a, b)) num = .ok res) :
    res.stiffness_range.length = num ∧ res.log_dec.length = num ∧
    ∀ i < num, 2 ≤ num → res.stiffness_range[i]? = some (a + i * ((b - a) / (num - 1))) := by
  unfold run_level1 at h
  split at h
  · obtain ⟨m, -, h⟩ := bindOk h
    obtain ⟨l, hl, h⟩ := bindOk h
    obtain rfl := Except.ok.inj h
    refine ⟨linspace_length _ _ _, by rw [(mapM_get hl).1]; exact linspace_length _ _ _, fun i hi hn => linspace_get hi hn⟩
  · cases h

/-- **C89** decrement `i` is that of the first mode, at the rated speed, that is not a backward one, of the same shaft, disks
and bearings with a further bearing at node `n` whose cross-coupled stiffness is value `i`. -/
theorem C89_log_dec {range : Option (ℝ × ℝ)} (h : r.run_level1 env n range num = .ok res) {i : ℕ} {Q : ℝ}
    (hQ : res.stiffness_range[i]? = some Q) :
    ∃ (speed : ℝ) (sl : Bool) (e : BearingElement) (r' : Rotor) (m : Modes) (k : ℕ) (d : ℝ), r.rated_w = some speed ∧ IsCross e n Q ∧
      Rotor.init env.pd env.fuel { shaft := r.shaft.map Nest.el, disks := r.disks, bearings := r.bearings ++ [.brg sl e] } =
        some (.ok r') ∧
      r'.modes env speed = .ok m ∧ res.log_dec[i]? = some d ∧ m.log_dec[k]? = some d ∧
      (∃ w, m.whirl[k]? = some w ∧ w ≠ .backward) ∧ ∀ j < k, m.whirl[j]? = some .backward := by
  unfold run_level1 at h
  split at h
  · rename_i speed hs
    cases range with
    | none =>
      split_ifs at h
    | some ab =>
      obtain ⟨a, b⟩ := ab
      obtain ⟨m0, -, h⟩ := bindOk h
      obtain ⟨l, hl, h⟩ := bindOk h
      obtain rfl := Except.ok.inj h
      have hi : i < l.length := by rw [(mapM_get hl).1]; exact (List.getElem?_eq_some_iff.1 hQ).1
      have hf := (mapM_get hl).2 i Q _ hQ (List.getElem?_eq_getElem hi)
      unfold level1At at hf
      cases hb : r.bearings with
      | nil => rw [hb] at hf; cases hf
      | cons b t =>
        rw [hb] at hf
        obtain ⟨c, hc, hf⟩ := bindOk hf
        obtain ⟨e, he, hx⟩ := cross_exists env.sp n Q
        unfold crossCoupling at hc
        rw [he] at hc
        obtain rfl := Except.ok.inj hc
        obtain ⟨r', hr', hf⟩ := bindOk hf
        obtain ⟨m, hm, hf⟩ := bindOk hf
        obtain ⟨l1, l2, l3, l4, -⟩ := modes_lengths hm
        have hit := item_ok.1 hf
        rw [List.getElem?_map, Option.map_eq_some_iff] at hit
        obtain ⟨⟨d, w⟩, hdw, hd⟩ := hit
        obtain ⟨k, hk, hw, hbef⟩ := filter_first hdw
        simp only [List.getElem?_zip_eq_some] at hk
        refine ⟨speed, b.isSeal, e, r', m, k, l[i], hs, hx, make_ok hr', hm, List.getElem?_eq_getElem hi, ?_, ⟨w, hk.2, ?_⟩,
          fun j hj => ?_⟩
        · rw [hk.1, ← hd]
        · simpa using hw
        · have hkl := (List.getElem?_eq_some_iff.1 hk.1).1
          have hj1 : j < m.log_dec.length := by omega
          have hj2 : j < m.whirl.length := by omega
          have := hbef j (m.log_dec[j], m.whirl[j]) hj (by
            rw [List.getElem?_zip_eq_some]
            exact ⟨List.getElem?_eq_getElem hj1, List.getElem?_eq_getElem hj2⟩)
          rw [List.getElem?_eq_getElem hj2]
          simpa using this
  · cases h

/-- **C89** an analysis needs a rated speed and a range: the defaults announced for the range are never reached. -/
theorem C89_default_false : (∃ e, r.run_level1 env n none num = .error e) ∧
    (r.rated_w = none → ∀ range, ∃ e, r.run_level1 env n range num = .error e) := by
  refine ⟨?_, fun hw range => ?_⟩
  · unfold run_level1
    split
    · dsimp only
      split_ifs <;> exact ⟨_, rfl⟩
    · exact ⟨_, rfl⟩
  · unfold run_level1
    rw [hw]
    exact ⟨_, rfl⟩

/-- **C89** the analysis does not carry over point masses: a rotor with a bearing on a support node beyond the shaft
cannot be analysed. -/
theorem C89_support {pd : Pandas} {fuel : ℕ} {a : RotorArgs} (h : Rotor.init pd fuel a = some (.ok r)) {b : BrgEl}
    (hb : b ∈ r.bearings) (hout : ∀ e ∈ r.shaft, nodeOf e + 1 < b.n) (hn : num ≠ 0) (range : Option (ℝ × ℝ)) :
    ∃ e, r.run_level1 env n range num = .error e := by
  cases hu : r.run_level1 env n range num with
  | error e => exact ⟨e, rfl⟩
  | ok res =>
    exfalso
    cases range with
    | none =>
      obtain ⟨e, he⟩ := (C89_default_false (env := env) (r := r) (n := n) (num := num)).1
      rw [he] at hu
      cases hu
    | some x =>
      obtain ⟨h1, -⟩ := C89_shape (a := x.1) (b := x.2) hu
      have h0 : 0 < res.stiffness_range.length := by omega
      obtain ⟨speed, sl, e, r', m, k, d, -, hx, hi, -⟩ := C89_log_dec hu (List.getElem?_eq_getElem h0)
      obtain ⟨y, hy, hle⟩ := bearing_inside hi rfl (List.mem_append_left _ hb)
      obtain ⟨z, hz, hzn⟩ := same_nodes h hi rfl hy
      have := hout z hz
      omega

/-- **C89** in the same way, there has to be a shaft node `n`: `n` is where the stiffness acts. -/
theorem C89_node {range : Option (ℝ × ℝ)} {pd : Pandas} {fuel : ℕ} {a : RotorArgs} (h : Rotor.init pd fuel a = some (.ok r))
    (hu : r.run_level1 env n range num = .ok res) (hn : num ≠ 0) : ∃ e ∈ r.shaft, n ≤ nodeOf e + 1 := by
  cases range with
  | none =>
    obtain ⟨e, he⟩ := (C89_default_false (env := env) (r := r) (n := n) (num := num)).1
    rw [he] at hu
    cases hu
  | some x =>
    obtain ⟨h1, -⟩ := C89_shape (a := x.1) (b := x.2) hu
    have h0 : 0 < res.stiffness_range.length := by omega
    obtain ⟨speed, sl, e, r', m, k, d, -, hx, hi, -⟩ := C89_log_dec hu (List.getElem?_eq_getElem h0)
    obtain ⟨y, hy, hle⟩ := bearing_inside hi rfl (List.mem_append_right _ (List.mem_singleton.2 rfl))
    obtain ⟨z, hz, hzn⟩ := same_nodes h hi rfl hy
    refine ⟨z, hz, ?_⟩
    have h2 : (BrgEl.brg sl e).n = n := hx.n
    omega

/-- An analysis of a rotor with a rated speed: a solver that finds the same undamped modes for every rotor gives decrements
of zero. -/
example : ∃ (env : RunEnv) (r : Rotor) (res : Level1), Rotor.init exPandas 10 (oneArgs (some 100) [exSupport]) = some (.ok r) ∧
    r.run_level1 env 1 (some (1e6, 3e6)) 3 = .ok res ∧ res.log_dec.length = 3 := by
  obtain ⟨r, h1, h2, h3, h4, h5, h6, h7, h8, h9, h10⟩ := one_rotor (some 100)
  let env : RunEnv := ⟨⟨fun _ _ => none, fun _ _ _ => none⟩, onePair, exPandas, 10, secant, fun _ => []⟩
  have hat : ∀ Q, ∃ d, r.level1At env 1 100 Q = .ok d := by
    intro Q
    obtain ⟨e, he, hp, hn, ht⟩ := plain_scalar env.sp false 1 (by norm_num) 0 0 Q (-Q)
    obtain ⟨r', g1, g2, g3, g4, g5, g6, -⟩ := one_facts (w := none) (bs := [exSupport, .brg false e])
      (by
        simp [exSupport, BrgEl.n, BrgEl.base, exBrg, hn])
      (fun b hb => by
        simp only [List.mem_cons, List.not_mem_nil, or_false] at hb
        rcases hb with rfl | rfl
        · exact exSupport_plain
        · exact hp) (by
        simp [allTags, oneArgs, ht, shaftList, Nest.flattenAll, Nest.flatten, BrgEl.tag, BrgEl.base, tagOr, BrgEl.isSeal,
          exSupport]
        decide) (by simp)
    obtain ⟨m, e1, e2, e3⟩ := modes_onePair (env := env) rfl (s := 100) (n := 12) (g6 100) g2 g3 g4 g5
    have hfw := modes_forward (env := env) rfl (g6 100) g2 rfl e1
    obtain ⟨l1, l2, l3, l4, -⟩ := modes_lengths e1
    rw [e2] at l1 l2 l3 l4
    obtain ⟨d1, d2, hd⟩ := List.length_eq_two.1 l3
    obtain ⟨w1, w2, hw⟩ := List.length_eq_two.1 l4
    rw [hw] at hfw
    obtain rfl := hfw w1 (by simp)
    obtain rfl := hfw w2 (by simp)
    refine ⟨d1, ?_⟩
    unfold level1At crossCoupling make
    rw [h7, h8, h9]
    dsimp only
    rw [show BearingElement.init env.sp _ = .ok e from he]
    show (do
      let rotor ← (match Rotor.init exPandas 10 (oneArgs none [exSupport, .brg false e]) with
        | some x => x
        | none => Except.error PyErr.exception)
      let m ← Rotor.modes env rotor 100
      item (((m.log_dec.zip m.whirl).filter fun x : ℝ × Whirl => decide (x.2 ≠ Whirl.backward)).map Prod.fst) 0) = _
    rw [g1]
    simp only [bind, Except.bind]
    rw [e1]
    simp only [hd, hw]
    rfl
  obtain ⟨m, e1, -⟩ := modes_onePair (env := env) rfl (s := 100) (n := 12) (h6 100) h2 h3 h4 h5
  obtain ⟨l, hl⟩ := mapM_total (l := linspace 1e6 3e6 3) (f := r.level1At env 1 100) fun Q _ => hat Q
  have hr : ∃ res, r.run_level1 env 1 (some (1e6, 3e6)) 3 = .ok res := by
    unfold run_level1
    rw [h10]
    simp only [bind, Except.bind]
    rw [e1]
    simp only
    rw [hl]
    exact ⟨_, rfl⟩
  obtain ⟨res, hr⟩ := hr
  exact ⟨env, r, res, h1, hr, (C89_shape hr).2.1⟩

end Ross.Props
