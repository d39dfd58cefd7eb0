import Verif.Lemmas.Spectrum
import Verif.Props.Readout
import Verif.Spec.Spectrum

/-!
# C103: the spectra of the responses of rotors with faults

`Spectrum.plot_dfft` gives the curves that are plotted, each with its amplitudes and its frequencies.
-/

namespace Ross.Props

open Spectrum SpectrumLemmas Spec Rotor RotorLemmas ReadoutLemmas

/-! ### The spectrum of a signal -/

/-- **C103** The spectrum of a signal has as many amplitudes as frequencies, half the number of samples; the
frequencies are the multiples of the inverse of the duration. -/
theorem C103_frequencies {x : List ℝ} {dt : ℝ} (hx : x ≠ []) (ht : dt ≠ 0) :
    ∃ amp freq, dfft x dt = .ok (amp, freq) ∧ amp.length = x.length / 2 ∧ freq.length = x.length / 2 ∧
      ∀ k < x.length / 2, freq[k]? = some (k / (x.length * dt)) := by
  refine ⟨_, _, dfft_eq hx ht, by simp, by simp, fun k hk => ?_⟩
  simp [hk]

theorem tones_fft {N K : ℕ} (hN : N ≠ 0) (t0 mean : ℝ) {dt : ℝ} (ht : dt ≠ 0) (A φ : ℕ → ℝ)
    (hK : 2 * K < N) {k : ℕ} (hk : 2 * k < N) :
    ‖fft (tones N K t0 dt mean A φ) k‖ * 2 / N = if k = 0 then 2 * |mean| else if k ≤ K then |A k| else 0 := by
  have hN' : (N : ℝ) ≠ 0 := by exact_mod_cast hN
  have hNC : (N : ℂ) ≠ 0 := by exact_mod_cast hN
  let ψ : ℕ → ℝ := fun l => 2 * Real.pi * (l / (N * dt)) * t0 + φ l
  have e : fft (tones N K t0 dt mean A φ) k =
      (if k = 0 then (mean : ℂ) * N else 0) +
        ∑ l ∈ Finset.Icc 1 K, (A l : ℂ) * (if k = l then N * Complex.exp (ψ l * Complex.I) / 2 else 0) := by
    unfold tones
    rw [fft_ofFn]
    have h1 : ∀ j : Fin N, ((mean + ∑ l ∈ Finset.Icc 1 K,
        A l * Real.cos (2 * Real.pi * (l / (N * dt)) * (t0 + (j : ℕ) * dt) + φ l) : ℝ) : ℂ) *
        w N (-(k : ℤ) * (j : ℕ)) = (mean : ℂ) * w N (-(k : ℤ) * (j : ℕ)) + ∑ l ∈ Finset.Icc 1 K,
        (A l : ℂ) * (((Real.cos (2 * Real.pi * (l * (j : ℕ) : ℤ) / N + ψ l) : ℝ) : ℂ) *
          w N (-(k : ℤ) * (j : ℕ))) := by
      intro j
      have h2 : ∀ l : ℕ, 2 * Real.pi * (l / (N * dt)) * (t0 + (j : ℕ) * dt) + φ l =
          2 * Real.pi * (l * (j : ℕ) : ℤ) / N + ψ l := by
        intro l
        simp only [ψ]
        push_cast
        field_simp
        ring
      simp only [h2]
      push_cast
      rw [add_mul, Finset.sum_mul]
      congr 1
      exact Finset.sum_congr rfl fun l _ => by ring
    rw [Finset.sum_congr rfl fun j _ => h1 j, Finset.sum_add_distrib, ← Finset.mul_sum, sum_w hN,
      Finset.sum_comm]
    congr 1
    · have : (N : ℤ) ∣ -(k : ℤ) ↔ k = 0 := by
        constructor
        · intro h
          have := Int.eq_zero_of_abs_lt_dvd h (by rw [abs_lt]; omega)
          omega
        · rintro rfl
          simp
      by_cases h : k = 0
      · rw [if_pos (this.2 h), if_pos h]
      · rw [if_neg fun e => h (this.1 e), if_neg h, mul_zero]
    · refine Finset.sum_congr rfl fun l hl => ?_
      rw [Finset.mem_Icc] at hl
      rw [← Finset.mul_sum, tone hN (ψ l) hk (by omega) (by omega)]
  rw [e]
  by_cases h0 : k = 0
  · subst h0
    rw [if_pos rfl, if_pos rfl, Finset.sum_eq_zero, add_zero, norm_mul]
    · simp
      field_simp
    · intro l hl
      rw [Finset.mem_Icc] at hl
      rw [if_neg (by omega), mul_zero]
  · rw [if_neg h0, if_neg h0, zero_add]
    by_cases hkK : k ≤ K
    · rw [if_pos hkK, Finset.sum_eq_single k]
      · rw [if_pos rfl, norm_mul, norm_div, norm_mul, Complex.norm_exp_ofReal_mul_I]
        simp
        field_simp
      · intro l _ hl
        rw [if_neg (Ne.symm hl), mul_zero]
      · intro h
        exact absurd (Finset.mem_Icc.2 ⟨by omega, hkK⟩) h
    · rw [if_neg hkK, Finset.sum_eq_zero]
      · simp
      · intro l hl
        rw [Finset.mem_Icc] at hl
        rw [if_neg (by omega), mul_zero]

/-- **C103** Of a signal made of a mean value and tones whose periods divide its duration the spectrum has at
the frequency of each tone its amplitude, at the other frequencies but zero nothing, and at zero
twice the mean value. -/
theorem C103_tones_partial {N K : ℕ} (hN : N ≠ 0) (t0 mean : ℝ) {dt : ℝ} (ht : dt ≠ 0) (A φ : ℕ → ℝ)
    (hK : 2 * K < N) :
    ∃ amp freq, dfft (tones N K t0 dt mean A φ) dt = .ok (amp, freq) ∧ ∀ k < N / 2,
      freq[k]? = some (k / (N * dt)) ∧
      amp[k]? = some (if k = 0 then 2 * |mean| else if k ≤ K then |A k| else 0) := by
  have hl : (tones N K t0 dt mean A φ).length = N := by simp [tones]
  have hx : tones N K t0 dt mean A φ ≠ [] := by
    intro h
    rw [h] at hl
    exact hN hl.symm
  refine ⟨_, _, dfft_eq hx ht, fun k hk => ?_⟩
  rw [hl]
  refine ⟨by simp [hk], ?_⟩
  rw [← tones_fft hN t0 mean ht A φ hK (by omega : 2 * k < N)]
  simp [hk]

/-- **C103 is false** of the mean value: a constant signal is shown with twice its value. -/
theorem C103_mean_false {N : ℕ} (hN : 2 ≤ N) {dt : ℝ} (ht : dt ≠ 0) (c : ℝ) :
    ∃ amp freq, dfft (List.replicate N c) dt = .ok (amp, freq) ∧ freq[0]? = some 0 ∧
      amp[0]? = some (2 * |c|) := by
  obtain ⟨amp, freq, h1, h2⟩ := C103_tones_partial (N := N) (K := 0) (by omega) 0 c ht 0 0 (by omega)
  obtain ⟨h3, h4⟩ := h2 0 (by omega)
  refine ⟨amp, freq, ?_, by simpa using h3, by simpa using h4⟩
  rw [← h1]
  congr 1
  simp [tones]

/-- **C103 is false** of the highest tone that the samples resolve: of a signal with an odd number of samples
it is not shown, and a signal of this tone alone has a spectrum that is zero throughout. -/
theorem C103_highest_false {K : ℕ} (hK : 0 < K) (t0 : ℝ) {dt : ℝ} (ht : dt ≠ 0) :
    ∃ amp freq, dfft (tones (2 * K + 1) K t0 dt 0 (fun k => if k = K then 1 else 0) 0) dt = .ok (amp, freq) ∧
      amp = List.replicate K 0 := by
  obtain ⟨amp, freq, h1, h2⟩ := C103_tones_partial (N := 2 * K + 1) (K := K) (by omega) t0 0 ht
    (fun k => if k = K then 1 else 0) 0 (by omega)
  have hx : tones (2 * K + 1) K t0 dt 0 (fun k => if k = K then 1 else 0) 0 ≠ [] := by simp [tones]
  obtain ⟨a', f', g1, g2, -⟩ := C103_frequencies hx ht
  rw [h1] at g1
  obtain ⟨rfl, rfl⟩ := Prod.mk.inj (Except.ok.inj g1)
  refine ⟨amp, freq, h1, ?_⟩
  have hl : amp.length = K := by
    rw [g2]
    simp [tones]
    omega
  refine List.ext_getElem? fun k => ?_
  by_cases hk : k < K
  · rw [(h2 k (by omega)).2, List.getElem?_replicate, if_pos hk]
    by_cases h0 : k = 0
    · simp [h0]
    · rw [if_neg h0, if_pos hk.le, if_neg (by omega)]
      simp
  · rw [List.getElem?_eq_none (by omega), List.getElem?_eq_none (by simp; omega)]

/-- **C103** No amplitude is more than twice the largest value of the signal. -/
theorem C103_bound {x : List ℝ} {dt B : ℝ} (hx : x ≠ []) (ht : dt ≠ 0) (hB : ∀ v ∈ x, |v| ≤ B) :
    ∃ amp freq, dfft x dt = .ok (amp, freq) ∧ ∀ a ∈ amp, 0 ≤ a ∧ a ≤ 2 * B := by
  have hl : 0 < (x.length : ℝ) := by
    rw [Nat.cast_pos]
    exact List.length_pos_iff.2 hx
  refine ⟨_, _, dfft_eq hx ht, fun a ha => ?_⟩
  obtain ⟨k, -, rfl⟩ := List.mem_map.1 ha
  refine ⟨by positivity, ?_⟩
  have : ‖fft x k‖ ≤ x.length * B := by
    rw [fft_eq]
    refine (norm_sum_le _ _).trans ?_
    refine (Finset.sum_le_sum (g := fun _ => B) fun j _ => ?_).trans (by simp)
    rw [norm_mul]
    have h1 : ‖w x.length (-(k : ℤ) * ((j : ℕ) : ℤ))‖ = 1 := by
      unfold w
      rw [show (2 * Real.pi * Complex.I * ((-(k : ℤ) * ((j : ℕ) : ℤ) : ℤ) : ℂ) / (x.length : ℂ)) =
        ((2 * Real.pi * ((-(k : ℤ) * ((j : ℕ) : ℤ) : ℤ) : ℝ) / (x.length : ℝ) : ℝ) : ℂ) * Complex.I by
          push_cast; ring]
      exact Complex.norm_exp_ofReal_mul_I _
    rw [h1, mul_one]
    simpa using hB _ (List.getElem_mem j.2)
  rw [div_le_iff₀ hl]
  nlinarith

/-- **C103** The tones of the spectrum have no more than the mean square of the signal: with the amplitude at
zero halved, the squares of the means of the tones add up to at most that of the signal. -/
theorem C103_energy {x : List ℝ} {dt : ℝ} (hx : 2 ≤ x.length) (ht : dt ≠ 0) :
    ∃ a0 amp freq, dfft x dt = .ok (a0 :: amp, freq) ∧
      (a0 / 2) ^ 2 + (amp.map fun a => a ^ 2 / 2).sum ≤ (x.map fun v => v ^ 2).sum / x.length := by
  have hne : x ≠ [] := by
    rintro rfl
    simp at hx
  obtain ⟨N, f, rfl⟩ : ∃ (N : ℕ) (f : Fin N → ℝ), x = List.ofFn f := ⟨x.length, x.get, by simp⟩
  have hl : (List.ofFn f).length = N := List.length_ofFn
  rw [hl] at hx
  have hN : N ≠ 0 := by omega
  have hN' : (0 : ℝ) < N := by exact_mod_cast Nat.pos_of_ne_zero hN
  obtain ⟨b, hb⟩ : ∃ b, N / 2 = b + 1 := ⟨N / 2 - 1, by omega⟩
  have he := dfft_eq hne ht
  rw [hl, hb, List.range_succ_eq_map] at he
  simp only [List.map_cons, List.map_map] at he
  refine ⟨_, _, _, he, ?_⟩
  rw [hl]
  let P : ℕ → ℝ := fun k => ‖fft (List.ofFn f) k‖ ^ 2
  have hP : ∀ k, 0 ≤ P k := fun k => by positivity
  have e1 : (List.map (fun a => a ^ 2 / 2)
      (List.map ((fun k => ‖fft (List.ofFn f) k‖ * 2 / (N : ℝ)) ∘ Nat.succ) (List.range b))).sum =
      (∑ k ∈ Finset.range b, 2 * P (k + 1)) / N ^ 2 := by
    have h1 : ∀ (g : ℕ → ℝ) (n : ℕ), ((List.range n).map g).sum = ∑ k ∈ Finset.range n, g k := by
      intro g n
      induction n with
      | zero => rfl
      | succ n ih => rw [List.range_succ, List.map_append, List.sum_append, ih, Finset.sum_range_succ]; simp
    rw [List.map_map, h1, Finset.sum_div]
    refine Finset.sum_congr rfl fun k _ => ?_
    simp only [Function.comp, P]
    field_simp
  have e2 : (List.map (fun v => v ^ 2) (List.ofFn f)).sum = ∑ j, f j ^ 2 := by
    rw [List.map_ofFn, List.sum_ofFn]
    rfl
  rw [e1, e2]
  have e3 : (‖fft (List.ofFn f) 0‖ * 2 / (N : ℝ) / 2) ^ 2 = P 0 / N ^ 2 := by
    simp only [P]
    field_simp
  rw [e3, ← add_div, div_le_div_iff₀ (by positivity) hN']
  have e4 := parseval hN f
  have e5 : P 0 + ∑ k ∈ Finset.range b, 2 * P (k + 1) ≤ ∑ k ∈ Finset.range N, P k := by
    obtain ⟨m, hm⟩ : ∃ m, N = 1 + b + m + b := ⟨N - 1 - 2 * b, by omega⟩
    have h1 : ∑ k ∈ Finset.range N, P k = P 0 + ∑ k ∈ Finset.range b, P (k + 1) +
        ∑ k ∈ Finset.range m, P (1 + b + k) + ∑ k ∈ Finset.range b, P (1 + b + m + k) := by
      rw [hm, Finset.sum_range_add, Finset.sum_range_add, Finset.sum_range_add, Finset.sum_range_one]
      congr 3
      exact Finset.sum_congr rfl fun k _ => by rw [Nat.add_comm]
    have h2 : ∑ k ∈ Finset.range b, P (1 + b + m + k) = ∑ k ∈ Finset.range b, P (k + 1) := by
      rw [← Finset.sum_range_reflect]
      refine Finset.sum_congr rfl fun k hk => ?_
      rw [Finset.mem_range] at hk
      simp only [P]
      rw [← mirror hN f (k := k + 1) (by omega)]
      congr 3
      omega
    have h3 : 0 ≤ ∑ k ∈ Finset.range m, P (1 + b + k) := Finset.sum_nonneg fun k _ => hP _
    rw [h1, h2, ← Finset.mul_sum]
    linarith
  have e6 : P 0 + ∑ k ∈ Finset.range b, 2 * P (k + 1) ≤ N * ∑ j, f j ^ 2 := by
    rw [← e4]
    exact e5
  nlinarith

/-- Non-vacuity: three tones in eight samples. -/
example : (8 : ℕ) ≠ 0 ∧ 2 * 3 < 8 ∧ (1e-3 : ℝ) ≠ 0 := by norm_num

/-! ### The curves of the probes -/

variable {pd : Pandas} {fuel : ℕ} {a : RotorArgs} {r : Rotor} {six : Bool} {N : ℕ}

/-- The last third of the samples. -/
def lastThird {α : Type} (l : List α) : List α := l.drop (2 * l.length / 3)

/-- The pairs of frequency and amplitude of a curve. -/
def points (c : List ℝ × List ℝ) : List (ℝ × ℝ) := c.2.zip c.1

open Classical in
theorem within_points (lo hi : ℝ) {amp freq : List ℝ} (h : amp.length = freq.length) :
    points (within (some (lo, hi)) (amp, freq)) =
      (points (amp, freq)).filter fun q => decide (lo ≤ q.1 ∧ q.1 ≤ hi) := by
  unfold points within
  dsimp only
  induction amp generalizing freq with
  | nil =>
    cases freq with
    | nil => rfl
    | cons f l => simp at h
  | cons x l ih =>
    cases freq with
    | nil => simp at h
    | cons f m =>
      have := ih (freq := m) (by simpa using h)
      by_cases h1 : lo ≤ f <;> by_cases h2 : f ≤ hi <;>
        simp_all [List.zip_cons_cons]

/-- **C103** The curve of a radial probe at a node of the shaft is the spectrum of the last third of the motion
of the node in the direction of the probe; a range keeps the points whose frequencies are in it. -/
theorem C103_radial (hw : WellFormed six N a) (h : init pd fuel a = some (.ok r)) {p : Probe} {θ dt : ℝ}
    (hd : p.direction = "radial") (ha : p.angle = some θ) (hn : p.node ≤ N) (ht : dt ≠ 0)
    {resp : List (Fin r.ndof → ℝ)} (hr : resp ≠ []) :
    ∃ s, dfft ((lastThird resp).map fun y => Real.cos θ * motion r.number_dof N y ("x", p.node) +
        Real.sin θ * motion r.number_dof N y ("y", p.node)) dt = .ok s ∧
      curve r resp dt none p = .ok (some s) ∧
      ∀ lo hi : ℝ, ∃ c, curve r resp dt (some (lo, hi)) p = .ok (some c) ∧
        ∀ q, q ∈ points c ↔ q ∈ points s ∧ lo ≤ q.1 ∧ q.1 ≤ hi := by
  obtain ⟨hnd, hN⟩ := ndof_eq' hw h
  obtain ⟨ex, ey, -⟩ := slot_shaft hnd hn
  have lx : slot r.number_dof N ("x", p.node) < r.ndof := by
    rw [ex, hN, size]
    rcases hnd with e | e <;> rw [e] <;> omega
  have ly : slot r.number_dof N ("y", p.node) < r.ndof := by
    rw [ey, hN, size]
    rcases hnd with e | e <;> rw [e] <;> omega
  have hs : seen r resp p = .ok (some ((lastThird resp).map fun y =>
      Real.cos θ * motion r.number_dof N y ("x", p.node) +
        Real.sin θ * motion r.number_dof N y ("y", p.node))) := by
    unfold seen tail
    rw [hd, if_neg (fun e => absurd e.1 (by decide)), if_neg (by decide), ha]
    simp only
    rw [column_motion (nd := r.number_dof) (N := N) (key := ("x", p.node)) _ (by rw [ex]; push_cast; rfl) lx,
      column_motion (nd := r.number_dof) (N := N) (key := ("y", p.node)) _ (by rw [ey]; push_cast; rfl) ly]
    simp only [project, zipWith_map]
    rfl
  have hne : (lastThird resp).map (fun y => Real.cos θ * motion r.number_dof N y ("x", p.node) +
      Real.sin θ * motion r.number_dof N y ("y", p.node)) ≠ [] := by
    intro e
    have := congrArg List.length e
    have h0 := List.length_pos_iff.2 hr
    simp [lastThird] at this
    omega
  obtain ⟨amp, freq, h1, h2, h3, -⟩ := C103_frequencies hne ht
  refine ⟨(amp, freq), h1, ?_, fun lo hi => ⟨within (some (lo, hi)) (amp, freq), ?_, fun q => ?_⟩⟩
  · simp only [curve, hs, h1, within]
  · simp only [curve, hs, h1]
  · rw [within_points lo hi (h2.trans h3.symm), List.mem_filter, decide_eq_true_iff]

/-- **C103** An axial probe shows the axial motion; models without axial motion skip it. -/
theorem C103_axial (hw : WellFormed six N a) (h : init pd fuel a = some (.ok r)) {p : Probe} {dt : ℝ}
    (hd : p.direction = "axial") (hn : p.node ≤ N) (ht : dt ≠ 0)
    {resp : List (Fin r.ndof → ℝ)} (hr : resp ≠ []) :
    (r.number_dof = 6 → ∃ s,
      dfft ((lastThird resp).map fun y => motion r.number_dof N y ("z", p.node)) dt = .ok s ∧
      curve r resp dt none p = .ok (some s)) ∧
    (r.number_dof = 4 → ∀ range, curve r resp dt range p = .ok none) := by
  obtain ⟨hnd, hN⟩ := ndof_eq' hw h
  obtain ⟨-, -, ez, -⟩ := slot_shaft hnd hn
  constructor
  · intro h6
    have lz : slot r.number_dof N ("z", p.node) < r.ndof := by
      rw [ez h6, hN, size]
      rcases hnd with e | e <;> rw [e] <;> omega
    have hs : seen r resp p = .ok (some ((lastThird resp).map fun y =>
        motion r.number_dof N y ("z", p.node))) := by
      unfold seen tail
      rw [if_neg (by simp [h6]), if_pos hd,
        column_motion (nd := r.number_dof) (N := N) (key := ("z", p.node)) _
          (by rw [ez h6]; push_cast; rfl) lz]
      rfl
    have hne : (lastThird resp).map (fun y => motion r.number_dof N y ("z", p.node)) ≠ [] := by
      intro e
      have := congrArg List.length e
      have h0 := List.length_pos_iff.2 hr
      simp [lastThird] at this
      omega
    obtain ⟨amp, freq, h1, -⟩ := C103_frequencies hne ht
    refine ⟨(amp, freq), h1, ?_⟩
    simp only [curve, hs, h1, within]
  · intro h4 range
    unfold curve seen
    rw [if_pos ⟨hd, by omega⟩]

/-- **C103** The curves are those of the probes, in their order, without those of the skipped. -/
theorem C103_curves {resp : List (Fin r.ndof → ℝ)} {dt : ℝ} {range : Option (ℝ × ℝ)} {probe : List Probe}
    {l : List (List ℝ × List ℝ)} (h : plot_dfft r resp dt range probe = .ok l) :
    ∃ m : List (Option (List ℝ × List ℝ)), l = m.filterMap id ∧ m.length = probe.length ∧
      ∀ (i : ℕ) (p : Probe), probe[i]? = some p → ∃ c, m[i]? = some c ∧ curve r resp dt range p = .ok c := by
  unfold plot_dfft at h
  cases hm : probe.mapM (curve r resp dt range) with
  | error e => rw [hm] at h; cases h
  | ok l' =>
    rw [hm] at h
    have := Except.ok.inj h
    refine ⟨l', this.symm, (ShapeLemmas.mapM_length hm).symm, fun i p hp => ?_⟩
    have := ShapeLemmas.mapM_get hm i
    rw [hp] at this
    cases hx : l'[i]? with
    | none => rw [hx] at this; cases this
    | some x =>
      rw [hx] at this
      exact ⟨x, rfl, Option.some.inj this⟩

/-- **C103 is false** of supports but the first: a probe at the second or a later support does not see its
motion, because the position of the motion in the response is taken to be that of a node of the shaft. -/
theorem C103_support_false (hw : WellFormed six N a) (h : init pd fuel a = some (.ok r))
    {p : Probe} (hd : p.direction = "radial") (ha : p.angle = some 0) (hn : N + 1 < p.node)
    (hp : p.node ≤ N + a.pms.length) :
    ∃ y : Fin r.ndof → ℝ, motion r.number_dof N y ("x", p.node) = 1 ∧ seen r [y] p ≠ .ok (some [1]) := by
  obtain ⟨hnd, hN⟩ := ndof_eq' hw h
  obtain ⟨ex, -⟩ := slot_support hnd (show N < p.node by omega)
  obtain ⟨d, hdn⟩ : ∃ d, p.node = N + 2 + d := ⟨p.node - N - 2, by omega⟩
  have hx : slot r.number_dof N ("x", p.node) < r.ndof := by
    rw [ex, hN, size, hdn, show N + 2 + d - N - 1 = d + 1 by omega]
    rcases hnd with e | e <;> rw [e] <;> omega
  have hne : r.number_dof * p.node ≠ slot r.number_dof N ("x", p.node) := by
    rw [ex, hdn, show N + 2 + d - N - 1 = d + 1 by omega]
    rcases hnd with e | e <;> rw [e] <;> omega
  refine ⟨fun i => if (i : ℕ) = slot r.number_dof N ("x", p.node) then 1 else 0, by simp [motion, hx], ?_⟩
  unfold seen tail
  rw [hd, if_neg (fun e => absurd e.1 (by decide)), if_neg (by decide), ha]
  simp only [List.length_singleton, Nat.reduceMul, Nat.reduceDiv, List.drop_zero]
  by_cases hlt : r.number_dof * p.node < r.ndof
  · rw [show ((r.number_dof : ℤ) * p.node) = ((r.number_dof * p.node : ℕ) : ℤ) by push_cast; rfl,
      column_ok _ _ hlt]
    split
    · rename_i x y h1 h2
      cases Except.ok.inj h1
      intro e
      have e' := Option.some.inj (Except.ok.inj e)
      cases y with
      | nil => simp [project] at e'
      | cons v l => simp [project, hne] at e'
    · simp
    · simp
  · have : column [fun i : Fin r.ndof => if (i : ℕ) = slot r.number_dof N ("x", p.node) then (1 : ℝ) else 0]
        ((r.number_dof : ℤ) * p.node) = .error .indexError := by
      unfold column wrap
      have h1 : ¬ ((r.number_dof : ℤ) * p.node < r.ndof) := by exact_mod_cast hlt
      have h2 : ¬ ((r.number_dof : ℤ) * p.node < 0) := not_lt.2 (by positivity)
      rw [if_neg fun e => h1 e.2, if_neg fun e => h2 e.2]
    rw [this]
    split <;> simp_all

/-- Non-vacuity: a probe at the middle of the shaft. -/
example : ∃ r, init exPandas 10 exArgs = some (.ok r) ∧ WellFormed false 2 exArgs ∧
    Probe.init 1 (some 0) = .ok ⟨1, some 0, "radial", none⟩ := by
  obtain ⟨r, h1, -⟩ := exRotor_exists
  exact ⟨r, h1, exArgs_wf, by simp [Probe.init]⟩

/-- A rotor on two supports, the nodes 3 and 4. -/
noncomputable def supportedArgs : RotorArgs where
  shaft := [.list [.el (exEl none), .el (exEl none)]]
  disks := []
  bearings := [.brg false (exBrg 3 none 1e7 10), .brg false (exBrg 0 (some 3) 1e6 100),
    .brg false (exBrg 4 none 1e7 10), .brg true (exBrg 2 (some 4) 1e6 100)]
  pms := [.pm ⟨some 3, some 10, 10, 10, none, ""⟩, .pm ⟨some 4, some 10, 10, 10, none, ""⟩]
  rated_w := none

/-- Non-vacuity of `C103_support_false`: the node 4 is the second support. -/
example : ∃ r, init exPandas 10 supportedArgs = some (.ok r) ∧ WellFormed false 2 supportedArgs ∧
    2 + 1 < 4 ∧ 4 ≤ 2 + supportedArgs.pms.length := by
  have hw : WellFormed false 2 supportedArgs :=
    { pos := by norm_num
      nodes := by
        intro k
        show k ∈ [0, 1] ↔ k < 2
        simp; omega
      len := by
        intro e he
        simp [supportedArgs, shaftList, Nest.flattenAll, Nest.flatten] at he
        subst he
        norm_num [exEl, exShaft]
      shaft_six := by
        intro e he
        simp [supportedArgs, shaftList, Nest.flattenAll, Nest.flatten] at he
        subst he; rfl
      disk_six := by intro e he; simp [supportedArgs] at he
      brg_six := by
        intro e he; simp [supportedArgs] at he
        rcases he with rfl | rfl | rfl | rfl <;> rfl
      disk_on := by intro e he; simp [supportedArgs] at he
      brg_nodes := by simp [supportedArgs, BrgEl.n, BrgEl.base, exBrg]
      brg_on := by
        intro e he; simp [supportedArgs] at he
        rcases he with rfl | rfl | rfl | rfl
        · right; exact ⟨_, List.mem_cons_self, rfl⟩
        · left; norm_num [BrgEl.n, BrgEl.base, exBrg]
        · right; exact ⟨_, List.mem_cons_of_mem _ List.mem_cons_self, rfl⟩
        · left; norm_num [BrgEl.n, BrgEl.base, exBrg]
      brg_linked := by
        intro e he h; simp [supportedArgs] at he
        rcases he with rfl | rfl | rfl | rfl
        · exact ⟨_, List.mem_cons_of_mem _ List.mem_cons_self, rfl⟩
        · norm_num [BrgEl.n, BrgEl.base, exBrg] at h
        · exact ⟨_, List.mem_cons_of_mem _ (List.mem_cons_of_mem _ (List.mem_cons_of_mem _
            List.mem_cons_self)), rfl⟩
        · norm_num [BrgEl.n, BrgEl.base, exBrg] at h
      brg_order := by
        intro e he c hc h hl; simp [supportedArgs] at he hc
        rcases he with rfl | rfl | rfl | rfl <;> rcases hc with rfl | rfl | rfl | rfl <;>
          simp [BrgEl.n, BrgEl.n_link, BrgEl.base, exBrg] at h hl ⊢
      pm_on := by
        intro p hp; simp [supportedArgs] at hp
        rcases hp with rfl | rfl
        · exact ⟨_, List.mem_cons_self, rfl⟩
        · exact ⟨_, List.mem_cons_of_mem _ (List.mem_cons_of_mem _ List.mem_cons_self), rfl⟩
      tags := by decide }
  obtain ⟨r, h1, -⟩ := accepts exPandas_sorts hw (fuel := 10) (by simp [supportedArgs])
  exact ⟨r, h1, hw, by norm_num, by norm_num [supportedArgs]⟩

end Ross.Props
