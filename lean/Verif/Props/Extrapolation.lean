import Verif.Spec.Extrapolation
import Verif.Props.StaticRuns

/-! # C112: the warning about extrapolated coefficients -/

namespace Ross.Props

open Ross Ross.Spec Ross.BearingLemmas Ross.Rotor Ross.RotorLemmas Ross.AssemblyLemmas

variable {pd : Pandas} {a : RotorArgs} {r : Rotor} {fuel : ℕ}

theorem foldl_max_spec : ∀ (l : List ℝ) (a : ℝ), (∀ x ∈ a :: l, x ≤ l.foldl max a) ∧ l.foldl max a ∈ a :: l
  | [], a => by simp
  | b :: l, a => by
    obtain ⟨h1, h2⟩ := foldl_max_spec l (max a b)
    have h0 := h1 _ List.mem_cons_self
    refine ⟨fun x hx => ?_, ?_⟩
    · simp only [List.foldl_cons]
      rcases List.mem_cons.1 hx with rfl | hx
      · exact (le_max_left _ _).trans h0
      · rcases List.mem_cons.1 hx with rfl | hx
        · exact (le_max_right _ _).trans h0
        · exact h1 x (List.mem_cons_of_mem _ hx)
    · simp only [List.foldl_cons]
      rcases List.mem_cons.1 h2 with h | h
      · rw [h]
        rcases max_choice a b with e | e <;> simp [e]
      · exact List.mem_cons_of_mem _ (List.mem_cons_of_mem _ h)

theorem foldl_min_spec : ∀ (l : List ℝ) (a : ℝ), (∀ x ∈ a :: l, l.foldl min a ≤ x) ∧ l.foldl min a ∈ a :: l
  | [], a => by simp
  | b :: l, a => by
    obtain ⟨h1, h2⟩ := foldl_min_spec l (min a b)
    have h0 := h1 _ List.mem_cons_self
    refine ⟨fun x hx => ?_, ?_⟩
    · simp only [List.foldl_cons]
      rcases List.mem_cons.1 hx with rfl | hx
      · exact h0.trans (min_le_left _ _)
      · rcases List.mem_cons.1 hx with rfl | hx
        · exact h0.trans (min_le_right _ _)
        · exact h1 x (List.mem_cons_of_mem _ hx)
    · simp only [List.foldl_cons]
      rcases List.mem_cons.1 h2 with h | h
      · rw [h]
        rcases min_choice a b with e | e <;> simp [e]
      · exact List.mem_cons_of_mem _ (List.mem_cons_of_mem _ h)

theorem maxOf_ok {l : List ℝ} {x : ℝ} (h : maxOf l = .ok x) : (∀ y ∈ l, y ≤ x) ∧ x ∈ l := by
  cases l with
  | nil => cases h
  | cons a l => cases h; exact foldl_max_spec l a

theorem minOf_ok {l : List ℝ} {x : ℝ} (h : minOf l = .ok x) : (∀ y ∈ l, x ≤ y) ∧ x ∈ l := by
  cases l with
  | nil => cases h
  | cons a l => cases h; exact foldl_min_spec l a

theorem beyond_ok {s f : List ℝ} {w : Bool} (h : beyond s f = .ok w) :
    f ≠ [] ∧ (w = true ↔ ∃ x ∈ s, ¬∃ lo ∈ f, ∃ hi ∈ f, lo ≤ x ∧ x ≤ hi) := by
  unfold beyond at h
  obtain ⟨a, ha, h⟩ := bind_ok.1 h
  obtain ⟨b, hb, h⟩ := bind_ok.1 h
  obtain ⟨ha1, ha2⟩ := maxOf_ok ha
  obtain ⟨hb1, hb2⟩ := maxOf_ok hb
  refine ⟨List.ne_nil_of_mem hb2, ?_⟩
  split at h
  · rename_i hlt
    cases h
    refine ⟨fun _ => ⟨a, ha2, ?_⟩, fun _ => rfl⟩
    rintro ⟨lo, -, hi, hhi, -, h2⟩
    linarith [hb1 hi hhi]
  · rename_i hlt
    obtain ⟨c, hc, h⟩ := bind_ok.1 h
    obtain ⟨d, hd, h⟩ := bind_ok.1 h
    obtain ⟨hc1, hc2⟩ := minOf_ok hc
    obtain ⟨hd1, hd2⟩ := minOf_ok hd
    cases h
    rw [decide_eq_true_iff]
    constructor
    · intro hcd
      refine ⟨c, hc2, ?_⟩
      rintro ⟨lo, hlo, hi, -, h1, -⟩
      linarith [hd1 lo hlo]
    · rintro ⟨x, hx, hn⟩
      by_contra hcd
      exact hn ⟨d, hd2, b, hb2, by linarith [hc1 x hx], by linarith [ha1 x hx]⟩

theorem loop_warns {s : List ℝ} : ∀ {l : List BrgEl} {w : Bool}, checkLoop s l = .ok w →
    (w = true ↔ ∃ b ∈ l, ∃ x ∈ s, ¬InTable b x)
  | [], w, h => by
    cases h
    simp
  | b :: l, w, h => by
    unfold checkLoop at h
    cases hf : b.base.frequency with
    | none =>
      rw [hf] at h
      rw [loop_warns h]
      constructor
      · rintro ⟨c, hc, x, hx, hn⟩
        exact ⟨c, List.mem_cons_of_mem _ hc, x, hx, hn⟩
      · rintro ⟨c, hc, x, hx, hn⟩
        rcases List.mem_cons.1 hc with rfl | hc
        · exact absurd (fun f e => by rw [hf] at e; cases e) hn
        · exact ⟨c, hc, x, hx, hn⟩
    | some f =>
      rw [hf] at h
      obtain ⟨v, hv, h⟩ := bind_ok.1 h
      obtain ⟨hne, hi⟩ := beyond_ok hv
      have ht : ∀ x, InTable b x ↔ ∃ lo ∈ f, ∃ hi ∈ f, lo ≤ x ∧ x ≤ hi := fun x =>
        ⟨fun h => h f hf, fun h f' e => by rw [hf] at e; cases e; exact h⟩
      cases v with
      | true =>
        cases h
        refine ⟨fun _ => ?_, fun _ => rfl⟩
        obtain ⟨x, hx, hn⟩ := hi.1 rfl
        exact ⟨b, List.mem_cons_self, x, hx, fun h => hn ((ht x).1 h)⟩
      | false =>
        rw [loop_warns (by simpa using h)]
        constructor
        · rintro ⟨c, hc, x, hx, hn⟩
          exact ⟨c, List.mem_cons_of_mem _ hc, x, hx, hn⟩
        · rintro ⟨c, hc, x, hx, hn⟩
          rcases List.mem_cons.1 hc with rfl | hc
          · exact absurd (hi.2 ⟨x, hx, fun h => hn ((ht x).2 h)⟩) (by simp)
          · exact ⟨c, hc, x, hx, hn⟩

theorem loop_runs {s : List ℝ} (hs : s ≠ []) : ∀ {l : List BrgEl}, (∀ b ∈ l, b.base.frequency ≠ some []) →
    ∃ w, checkLoop s l = .ok w
  | [], _ => ⟨false, rfl⟩
  | b :: l, h => by
    obtain ⟨w, hw⟩ := loop_runs hs fun c hc => h c (List.mem_cons_of_mem _ hc)
    unfold checkLoop
    cases hf : b.base.frequency with
    | none => exact ⟨w, hw⟩
    | some f =>
      have hne : f ≠ [] := fun e => h b List.mem_cons_self (by rw [hf, e])
      obtain ⟨x, s, rfl⟩ := List.exists_cons_of_ne_nil hs
      obtain ⟨y, f, rfl⟩ := List.exists_cons_of_ne_nil hne
      have : ∃ v, beyond (x :: s) (y :: f) = .ok v := by
        unfold beyond maxOf minOf
        simp only [bind, Except.bind, pure, Except.pure]
        split
        · exact ⟨_, rfl⟩
        · exact ⟨_, rfl⟩
      obtain ⟨v, hv⟩ := this
      simp only [hv, bind, Except.bind, pure, Except.pure]
      cases v with
      | true => exact ⟨true, rfl⟩
      | false => exact ⟨w, by simpa using hw⟩

/-- **C112** a frequency response and a Campbell diagram warn exactly if one of the speeds is outside of the table of one of
the bearings. -/
theorem C112_warns {la : Lapack} {s : List ℝ} {modes : Option (List ℤ)} {w : Bool} {x : List (FreqResp r.ndof)}
    (h : r.freqResponseWarned la s modes = .ok (w, x)) : w = true ↔ ∃ b ∈ r.bearings, ∃ v ∈ s, ¬InTable b v := by
  unfold freqResponseWarned at h
  obtain ⟨w', hw, h⟩ := bind_ok.1 h
  obtain ⟨x', -, h⟩ := bind_ok.1 h
  cases h
  exact loop_warns hw

/-- **C112** the same for a Campbell diagram. -/
theorem C112_warns_campbell {env : RunEnv} {s : List ℝ} {n : ℕ} {t : String} {w : Bool} {x : Campbell}
    (h : r.campbellWarned env s n t = .ok (w, x)) : w = true ↔ ∃ b ∈ r.bearings, ∃ v ∈ s, ¬InTable b v := by
  unfold campbellWarned at h
  obtain ⟨w', hw, h⟩ := bind_ok.1 h
  obtain ⟨x', -, h⟩ := bind_ok.1 h
  cases h
  exact loop_warns hw

/-- **C112** the check itself fails for no rotor with tables that have entries and no array of speeds that has. -/
theorem C112_check (hb : ∀ b ∈ r.bearings, b.base.frequency ≠ some []) {s : List ℝ} (hs : s ≠ []) :
    ∃ w, r.checkFrequencyArray s = .ok w := loop_runs hs hb

section silent

variable {b b' : BrgEl} {ω : ℝ}

theorem same_K (h : SameInTable b b') (hω : InTable b ω) : Elm.K ω (.brg b') = Elm.K ω (.brg b) := by
  have h1 := h.coef ω hω
  have h2 := h.link
  cases b <;> cases b' <;> simp [coeffs] at h1
  · simp only [BrgEl.base] at h2
    simp only [Elm.K, BearingElement.K, h1, h2]
  · simp only [BrgEl.base] at h2
    simp only [Elm.K, BearingElement6DoF.K, h1, h2]

theorem same_C (h : SameInTable b b') (hω : InTable b ω) : Elm.C ω (.brg b') = Elm.C ω (.brg b) := by
  have h1 := h.coef ω hω
  have h2 := h.link
  cases b <;> cases b' <;> simp [coeffs] at h1
  · simp only [BrgEl.base] at h2
    simp only [Elm.C, BearingElement.C, h1, h2]
  · simp only [BrgEl.base] at h2
    simp only [Elm.C, BearingElement6DoF.C, h1, h2]

theorem same_M (h : SameInTable b b') (hω : InTable b ω) : Elm.M ω (.brg b') = Elm.M ω (.brg b) := by
  have h1 := h.coef ω hω
  have h2 := h.link
  cases b <;> cases b' <;> simp [coeffs] at h1
  · simp only [BrgEl.base] at h2
    simp only [Elm.M, BearingElement.M, h1, h2]
  · simp only [BrgEl.base] at h2
    simp only [Elm.M, BearingElement6DoF.M, h1, h2]

theorem eval_kind {c c' : Coeff} (h : c'.eval ω = c.eval ω) (v : ℝ) :
    (∃ x' x, c'.eval v = .ok x' ∧ c.eval v = .ok x) ∨ c'.eval v = .error .typeError ∧ c.eval v = .error .typeError := by
  unfold Coeff.eval at *
  cases h1 : c.interp <;> cases h2 : c'.interp <;> rw [h1, h2] at h <;> first | cases h; done | simp

theorem link_size {k : ℕ} (l : Option ℕ) (A B : Matrix (Fin k) (Fin k) ℝ) :
    (⟨(linkMat l A).1, 0⟩ : LMat) = ⟨(linkMat l B).1, 0⟩ := by
  cases l <;> rfl

theorem same_G (h : SameInTable b b') (hω : InTable b ω) : Elm.G (.brg b') = Elm.G (.brg b) := by
  have h1 := h.coef ω hω
  have h2 := h.link
  cases b <;> cases b' <;> simp [coeffs] at h1
  · simp only [BrgEl.base] at h2
    rename_i b _ b'
    simp only [Elm.G, BearingElement.G, BearingElement.K, h2]
    rcases eval_kind h1.1 0 with ⟨x1, y1, e1, f1⟩ | ⟨e1, f1⟩ <;>
    rcases eval_kind h1.2.1 0 with ⟨x2, y2, e2, f2⟩ | ⟨e2, f2⟩ <;>
    rcases eval_kind h1.2.2.1 0 with ⟨x3, y3, e3, f3⟩ | ⟨e3, f3⟩ <;>
    rcases eval_kind h1.2.2.2.1 0 with ⟨x4, y4, e4, f4⟩ | ⟨e4, f4⟩ <;>
    simp only [e1, e2, e3, e4, f1, f2, f3, f4, bind, Except.bind, pure, Except.pure]
    rw [link_size]
  · simp only [BrgEl.base] at h2
    rename_i b b'
    simp only [Elm.G, BearingElement6DoF.G, BearingElement6DoF.K, h2]
    have h5 := h1.2.2.2.2.2.2.2.2.2.2.2.2.1
    rcases eval_kind h1.1 0 with ⟨x1, y1, e1, f1⟩ | ⟨e1, f1⟩ <;>
    rcases eval_kind h1.2.1 0 with ⟨x2, y2, e2, f2⟩ | ⟨e2, f2⟩ <;>
    rcases eval_kind h1.2.2.1 0 with ⟨x3, y3, e3, f3⟩ | ⟨e3, f3⟩ <;>
    rcases eval_kind h1.2.2.2.1 0 with ⟨x4, y4, e4, f4⟩ | ⟨e4, f4⟩ <;>
    rcases eval_kind h5 0 with ⟨x5, y5, e5, f5⟩ | ⟨e5, f5⟩ <;>
    simp only [e1, e2, e3, e4, e5, f1, f2, f3, f4, f5, bind, Except.bind, pure, Except.pure]
    rw [link_size]

theorem assemble_same {N : ℕ} {m : Elm → Res LMat} {f : Elm → Elm} : ∀ {l : List (Elm × Dict DofKey ℕ)}
    {A : Matrix (Fin N) (Fin N) ℝ}, (∀ x ∈ l, m (f x.1) = m x.1) →
    (l.map fun x => (f x.1, x.2)).foldlM (fun A x => do
      let E ← m x.1
      ixAdd A x.2.values E) A = l.foldlM (fun A x => do
      let E ← m x.1
      ixAdd A x.2.values E) A
  | [], A, _ => rfl
  | x :: l, A, h => by
    rw [List.map_cons, List.foldlM_cons, List.foldlM_cons, h x List.mem_cons_self]
    refine bind_congr fun B => ?_
    exact assemble_same fun y hy => h y (List.mem_cons_of_mem _ hy)

/-- The element with another bearing. -/
def swapBrg (g : BrgEl → BrgEl) : Elm → Elm
  | .brg b => .brg (g b)
  | e => e

variable {g : BrgEl → BrgEl}

theorem rebearing_placed : (rebearing g r).placed = r.placed.map fun x => (swapBrg g x.1, x.2) := by
  dsimp only
  congr 1

theorem same_elm (h : init pd fuel a = some (.ok r)) (hg : ∀ b ∈ r.bearings, SameInTable b (g b))
    (hω : ∀ b ∈ r.bearings, InTable b ω) {x : Elm × Dict DofKey ℕ} (hx : x ∈ r.placed) :
    Elm.M ω (swapBrg g x.1) = Elm.M ω x.1 ∧ Elm.K ω (swapBrg g x.1) = Elm.K ω x.1 ∧
    Elm.C ω (swapBrg g x.1) = Elm.C ω x.1 ∧ Elm.G (swapBrg g x.1) = Elm.G x.1 := by
  have hb := init_ok h
  rcases hx1 : x.1 with e | e | e | e
  · exact ⟨rfl, rfl, rfl, rfl⟩
  · exact ⟨rfl, rfl, rfl, rfl⟩
  · have : e ∈ r.bearings := by
      have := (mem_elements hb x.1).1 (placed_mem hb hx)
      rw [hx1] at this
      rcases this with ⟨_, _, h⟩ | ⟨_, _, h⟩ | ⟨b, hb, h⟩ | ⟨_, _, h⟩ <;> cases h
      exact hb
    exact ⟨same_M (hg e this) (hω e this), same_K (hg e this) (hω e this), same_C (hg e this) (hω e this),
      same_G (hg e this) (hω e this)⟩
  · exact ⟨rfl, rfl, rfl, rfl⟩

theorem Msync_swap {e : Elm} (h : Elm.M ω (swapBrg g e) = Elm.M ω e) (s : Bool) :
    Elm.Msync ω s (swapBrg g e) = Elm.Msync ω s e := by
  rcases e with e | e | e | e
  · rfl
  · rfl
  · cases s <;> exact h
  · rfl

theorem same_matrices (h : init pd fuel a = some (.ok r)) (hg : ∀ b ∈ r.bearings, SameInTable b (g b))
    (hω : ∀ b ∈ r.bearings, InTable b ω) :
    (∀ s, (rebearing g r).M (some ω) s = r.M (some ω) s) ∧ (rebearing g r).K ω = r.K ω ∧
    (rebearing g r).C ω = r.C ω ∧ (rebearing g r).G = r.G := by
  have h1 := fun x hx => same_elm h hg hω (x := x) hx
  refine ⟨fun s => ?_, ?_, ?_, ?_⟩
  · unfold Rotor.M assemble
    rw [rebearing_placed]
    exact assemble_same fun x hx => Msync_swap (h1 x hx).1 s
  · unfold Rotor.K assemble keep
    rw [rebearing_placed]
    simp only [List.not_mem_nil, not_false_eq_true, decide_true, List.filter_true]
    exact assemble_same fun x hx => (h1 x hx).2.1
  · unfold Rotor.C assemble keep
    rw [rebearing_placed]
    simp only [List.not_mem_nil, not_false_eq_true, decide_true, List.filter_true]
    exact assemble_same fun x hx => (h1 x hx).2.2.1
  · unfold Rotor.G assemble
    rw [rebearing_placed]
    exact assemble_same fun x hx => (h1 x hx).2.2.2

theorem same_A (h : init pd fuel a = some (.ok r)) (hg : ∀ b ∈ r.bearings, SameInTable b (g b))
    (hω : ∀ b ∈ r.bearings, InTable b ω) (s : Bool) : (rebearing g r).A ω none s = r.A ω none s ∧
    (rebearing g r).A ω (some ω) s = r.A ω (some ω) s := by
  obtain ⟨h1, h2, h3, h4⟩ := same_matrices h hg hω
  unfold Rotor.A
  simp only [Option.getD_none, Option.getD_some]
  rw [h1, h2, h3, h4]
  exact ⟨rfl, rfl⟩

theorem silent_inside {s : List ℝ} (hw : r.checkFrequencyArray s = .ok false) {v : ℝ} (hv : v ∈ s) :
    ∀ b ∈ r.bearings, InTable b v := by
  intro b hb
  by_contra hn
  exact absurd ((loop_warns hw).2 ⟨b, hb, v, hv, hn⟩) (by simp)

theorem same_transfer (h : init pd fuel a = some (.ok r)) (hg : ∀ b ∈ r.bearings, SameInTable b (g b))
    (hω : ∀ b ∈ r.bearings, InTable b ω) (la : Lapack) (modes : Option (List ℤ)) :
    (rebearing g r).transfer_matrix la ω none modes = r.transfer_matrix la ω none modes := by
  obtain ⟨h1, h2, h3, h4⟩ := same_matrices h hg hω
  have h5 := same_A h hg hω false
  unfold Rotor.transfer_matrix Rotor.lti Rotor.eigen
  simp only [Option.getD_none, Option.getD_some]
  rw [h1, h2, h3, h5.1, h5.2]
  rfl

theorem same_check (hg : ∀ b ∈ r.bearings, SameInTable b (g b)) (s : List ℝ) :
    (rebearing g r).checkFrequencyArray s = r.checkFrequencyArray s := by
  show checkLoop s (r.bearings.map g) = checkLoop s r.bearings
  revert hg
  generalize r.bearings = l
  intro hg
  induction l with
  | nil => rfl
  | cons b l ih =>
    rw [List.map_cons, checkLoop, checkLoop, (hg b List.mem_cons_self).table,
      ih fun c hc => hg c (List.mem_cons_of_mem _ hc)]

theorem mapM_same {α β : Type} {f g : α → Res β} : ∀ {l : List α}, (∀ v ∈ l, f v = g v) → l.mapM f = l.mapM g
  | [], _ => rfl
  | v :: l, h => by
    rw [List.mapM_cons, List.mapM_cons, h v List.mem_cons_self, mapM_same fun y hy => h y (List.mem_cons_of_mem _ hy)]

/-- **C112** a frequency response without the warning does not depend on what the coefficients of the bearings are outside
of their tables. -/
theorem C112_silent (h : init pd fuel a = some (.ok r)) (hg : ∀ b ∈ r.bearings, SameInTable b (g b)) {la : Lapack}
    {s : List ℝ} {modes : Option (List ℤ)} (hw : r.checkFrequencyArray s = .ok false) :
    (rebearing g r).freqResponseWarned la s modes = r.freqResponseWarned la s modes := by
  unfold freqResponseWarned run_freq_response
  rw [same_check hg]
  congr 1
  funext w
  rw [mapM_same (g := fun speed : ℝ => do
    let H ← r.transfer_matrix la speed none modes
    pure (⟨H, (Complex.I * speed) • H, (-(speed : ℂ) ^ 2) • H⟩ : FreqResp r.ndof)) fun v hv => by
      rw [same_transfer h hg (silent_inside hw hv)]]

/-- **C112** the same for a Campbell diagram. -/
theorem C112_silent_campbell (h : init pd fuel a = some (.ok r)) (hg : ∀ b ∈ r.bearings, SameInTable b (g b)) {env : RunEnv}
    {s : List ℝ} {n : ℕ} {t : String} (hw : r.checkFrequencyArray s = .ok false) :
    (rebearing g r).campbellWarned env s n t = r.campbellWarned env s n t := by
  have hm : ∀ v ∈ s, (rebearing g r).modes env v (2 * n) = r.modes env v (2 * n) := by
    intro v hv
    have h5 := (same_A h hg (silent_inside hw hv) false).1
    have h6 : (rebearing g r).run_modal env.la v (2 * n) true false = r.run_modal env.la v (2 * n) true false := by
      unfold Rotor.run_modal Rotor.eigen
      rw [h5]
      rcases r.A v none false with e | A
      · rfl
      · simp only [bind, Except.bind, Bool.false_eq_true, if_false, if_true]
        cases env.la.eigs A (2 * (2 * n)) <;> rfl
    unfold Rotor.modes
    rw [h6]
  have hc : (rebearing g r).bearings.any (fun b => (brgFrequency b).isSome) =
      r.bearings.any fun b => (brgFrequency b).isSome := by
    show (r.bearings.map g).any _ = _
    rw [List.any_map, Bool.eq_iff_iff]
    simp only [List.any_eq_true, Function.comp_apply, brgFrequency]
    exact exists_congr fun b => and_congr_right fun hb => by rw [(hg b hb).table]
  unfold campbellWarned run_campbell
  rw [same_check hg, hc, mapM_same (g := fun w => do
      let m ← r.modes env w (2 * n)
      let row ← campbellRow env n t m
      pure (w, m, row)) fun v hv => by rw [hm v hv]]

end silent

/-- **C112** a forced response and a modal analysis never warn, wherever their speeds are. -/
theorem C112_others_false (r : Rotor) (la : Lapack) :
    (∀ force s modes w x, r.forcedResponseWarned la force s modes = .ok (w, x) → w = false) ∧
    ∀ v w x, r.modalWarned la v = .ok (w, x) → w = false := by
  constructor
  · intro force s modes w x h
    obtain ⟨x', -, h⟩ := bind_ok.1 h
    cases h
    rfl
  · intro v w x h
    obtain ⟨x', -, h⟩ := bind_ok.1 h
    cases h
    rfl

/-- A bearing with a table from 0 to 100 rad/s. -/
noncomputable def tableBrg (n : ℕ) : BearingElement := { exBrg n none 1e6 100 with frequency := some [0, 100] }

/-- A rod on two bearings with tables. -/
noncomputable def tableArgs : RotorArgs where
  shaft := [.el ⟨false, rodShaft⟩]
  disks := []
  bearings := [.brg false (tableBrg 0), .brg false (tableBrg 1)]

theorem tableArgs_wf : WellFormed false 1 tableArgs where
  pos := by omega
  nodes := by
    intro j
    show j ∈ [0] ↔ j < 1
    simp
  len := by
    intro e he
    simp [tableArgs, shaftList, Nest.flattenAll, Nest.flatten] at he
    subst he
    norm_num [rodShaft, exShaft]
  shaft_six := by
    intro e he
    simp [tableArgs, shaftList, Nest.flattenAll, Nest.flatten] at he
    subst he; rfl
  disk_six := by simp [tableArgs]
  brg_six := by
    intro e he; simp [tableArgs] at he
    rcases he with rfl | rfl <;> rfl
  disk_on := by simp [tableArgs]
  brg_nodes := by simp [tableArgs, BrgEl.n, BrgEl.base, tableBrg, exBrg]
  brg_on := by
    intro e he; simp [tableArgs] at he
    rcases he with rfl | rfl <;> left <;> simp [BrgEl.n, BrgEl.base, tableBrg, exBrg]
  brg_linked := by
    intro e he h; simp [tableArgs] at he
    rcases he with rfl | rfl <;> simp [BrgEl.n, BrgEl.base, tableBrg, exBrg] at h
  brg_order := by
    intro e he c hc h hl; simp [tableArgs] at he hc
    rcases he with rfl | rfl <;> rcases hc with rfl | rfl <;>
      simp [BrgEl.n, BrgEl.n_link, BrgEl.base, tableBrg, exBrg] at h hl ⊢
  pm_on := by simp [tableArgs]
  tags := by decide

open Classical in
/-- Another stiffness outside of the table. -/
noncomputable def stiffOutside : BrgEl → BrgEl
  | .brg s b => .brg s { b with kxx := ⟨b.kxx.values, b.kxx.interp.map fun f ω => if InTable (.brg s b) ω then f ω else 1e9⟩ }
  | b => b

/-- No warning from 0 to 100 rad/s, and a stiffness that can be changed outside; a warning for 150 rad/s. -/
example : ∃ r, init exPandas 10 tableArgs = some (.ok r) ∧ (∀ b ∈ r.bearings, b.base.frequency ≠ some []) ∧
    r.checkFrequencyArray [0, 50, 100] = .ok false ∧ r.checkFrequencyArray [50, 150] = .ok true ∧
    (∀ b ∈ r.bearings, SameInTable b (stiffOutside b)) ∧ ∃ b ∈ r.bearings,
      (stiffOutside b).base.kxx.eval 150 ≠ b.base.kxx.eval 150 := by
  obtain ⟨r, h1, h2, h3, h4⟩ := accepts exPandas_sorts tableArgs_wf (fuel := 10) (by simp [tableArgs])
  have hb := init_ok h1
  have hbr : ∀ b, b ∈ r.bearings ↔ b = .brg false { tableBrg 0 with tag := some "Bearing 0" } ∨
      b = .brg false { tableBrg 1 with tag := some "Bearing 1" } := by
    intro b
    rw [hb.bearings, (parts_br_perm tableArgs).mem_iff]
    have : tagBearings tableArgs.bearings = [.brg false { tableBrg 0 with tag := some "Bearing 0" },
      .brg false { tableBrg 1 with tag := some "Bearing 1" }] := rfl
    rw [this]
    simp
  have hf : ∀ b ∈ r.bearings, b.base.frequency = some [0, 100] := by
    intro b hb
    rcases (hbr b).1 hb with rfl | rfl <;> rfl
  have hin : ∀ b ∈ r.bearings, ∀ x, InTable b x ↔ 0 ≤ x ∧ x ≤ 100 := by
    intro b hb x
    constructor
    · intro h
      obtain ⟨lo, hlo, hi, hhi, h1, h2⟩ := h _ (hf b hb)
      simp only [List.mem_cons, List.not_mem_nil, or_false] at hlo hhi
      rcases hlo with rfl | rfl <;> rcases hhi with rfl | rfl <;> constructor <;> linarith
    · intro h f e
      rw [hf b hb] at e
      cases e
      exact ⟨0, by simp, 100, by simp, h.1, h.2⟩
  have hne : ∀ b ∈ r.bearings, b.base.frequency ≠ some [] := fun b hb => by rw [hf b hb]; simp
  have m0 := (hbr _).2 (Or.inl rfl)
  obtain ⟨w1, hw1⟩ := C112_check hne (s := [0, 50, 100]) (by simp)
  obtain ⟨w2, hw2⟩ := C112_check hne (s := [50, 150]) (by simp)
  have e1 : w1 = false := by
    by_contra hn
    obtain ⟨b, hb, v, hv, hn⟩ := (loop_warns hw1).1 (by simpa using hn)
    rw [hin b hb] at hn
    simp only [List.mem_cons, List.not_mem_nil, or_false] at hv
    rcases hv with rfl | rfl | rfl <;> norm_num at hn
  have e2 : w2 = true := (loop_warns hw2).2 ⟨_, m0, 150, by simp, by rw [hin _ m0]; norm_num⟩
  refine ⟨r, h1, hne, by rw [hw1, e1], by rw [hw2, e2], fun b hb => ?_, _, m0, ?_⟩
  · have : ∃ c, b = .brg false c := by rcases (hbr b).1 hb with rfl | rfl <;> exact ⟨_, rfl⟩
    obtain ⟨c, rfl⟩ := this
    refine ⟨rfl, rfl, fun ω hω => ?_⟩
    have : (stiffOutside (.brg false c)).base.kxx.eval ω = c.kxx.eval ω := by
      unfold stiffOutside
      dsimp only [BrgEl.base]
      unfold Coeff.eval
      cases c.kxx.interp with
      | none => rfl
      | some f => simp [hω]
    simp only [stiffOutside, BrgEl.base] at this
    simp only [stiffOutside, coeffs, List.map_cons, this]
  · have hn : ¬InTable (.brg false { tableBrg 0 with tag := some "Bearing 0" }) 150 := by
      rw [hin _ m0]; norm_num
    have key : ∀ (c : BearingElement) (f : ℝ → ℝ), c.kxx.interp = some f → ¬InTable (.brg false c) 150 → f 150 ≠ 1e9 →
        (stiffOutside (.brg false c)).base.kxx.eval 150 ≠ (BrgEl.brg false c).base.kxx.eval 150 := by
      intro c f hc hn hf
      unfold stiffOutside Coeff.eval
      simp only [BrgEl.base, hc, Option.map_some, if_neg hn]
      intro h
      exact hf (Except.ok.inj h).symm
    exact key _ _ rfl hn (by norm_num)

end Ross.Props
