import Mathlib.Algebra.BigOperators.Intervals
import Verif.Model.CoAxialPos
import Verif.Lemmas.Bearing
import Verif.Spec.CoAxialDofs

/-! # Lemmas on the axial positions of coaxial rotors -/

namespace Ross.CoAxialPosLemmas

open Ross Ross.Rotor Ross.CoAxialPos

/-- The length of the first `m` elements from row `i` on. -/
noncomputable def upTo (L : ℕ → ℝ) (i m : ℕ) : ℝ := ∑ q ∈ Finset.range m, L (i + q)

theorem upTo_succ (L : ℕ → ℝ) (i m : ℕ) : upTo L i (m + 1) = upTo L i m + L (i + m) := Finset.sum_range_succ _ _

/-- The first `k` elements of the shaft that begins at row `i` lie end to end from `x` on. -/
def Laid (L : ℕ → ℝ) (i k : ℕ) (s : Pos) (x : ℝ) : Prop :=
  ∀ m < k, s.l (i + m) = x + upTo L i m ∧ s.r (i + m) = x + upTo L i m + L (i + m)

/-- What the links of one row may be: bearings on elements of earlier rows, of the same length. -/
def LinkFits (L : ℕ → ℝ) (link : ℕ → Option ℕ) (i j c : ℕ) : Prop :=
  (∀ b, link (c + j) = some b → 1 ≤ j ∧ b < i ∧ L b = L c) ∧
  (∀ b, link (c + j) = none → link (c + j + 1) = some b → 1 ≤ b ∧ b ≤ i ∧ L (b - 1) = L c)

theorem shift {L : ℕ → ℝ} {i k e : ℕ} {s : Pos} {x d : ℝ} (h : Laid L i (k + 1) s x) (he : i + k < e) :
    Laid L i (k + 1) ⟨addSlice s.l i e d, addSlice s.r i e d⟩ (x + d) := by
  intro m hm
  obtain ⟨h1, h2⟩ := h m hm
  have : i ≤ i + m ∧ i + m < e := by omega
  simp only [addSlice, if_pos this, h1, h2]
  constructor <;> ring

theorem shift_frame (f : ℕ → ℝ) (i e : ℕ) (d : ℝ) {m : ℕ} (hm : m < i) : addSlice f i e d m = f m := by
  unfold addSlice
  rw [if_neg (by omega)]

theorem step_spec {L : ℕ → ℝ} {nl : ℕ → ℕ} {N : ℕ} {link : ℕ → Option ℕ} {i j k : ℕ} {s : Pos} {x : ℝ}
    (hN : i + k < N) (hnl : 0 < k → nl (k + i) ≠ nl (k + i - 1)) (hsp : ∀ m < i, s.r m = s.l m + L m)
    (hlaid : Laid L i k s x) (hfit : LinkFits L link i j (i + k)) :
    ∃ s' x', step L nl N link i k (i + k + j) s = .ok s' ∧ (∀ m < i, s'.l m = s.l m ∧ s'.r m = s.r m) ∧
      Laid L i (k + 1) s' x' ∧
      (∀ b, link (i + k + j) = some b → s'.l (i + k) = s.l b) ∧
      (∀ b, link (i + k + j) = none → link (i + k + j + 1) = some b → s'.r (i + k) = s.r (b - 1)) ∧
      (link (i + k + j) = none → link (i + k + j + 1) = none →
        (0 < k → x' = x) ∧ (k = 0 → 0 < i → x' = s.r (i - 1)) ∧ (k = 0 → i = 0 → 2 ≤ N → x' = s.r (N - 1))) := by
  -- the row before links are looked at
  set r₁ := if k = 0 then Function.update s.r (k + i) (L (k + i)) else s.r with hr₁
  set y := r₁ (before1 N (k + i)) with hy
  set s₂ : Pos := ⟨Function.update s.l (k + i) y, Function.update r₁ (k + i) (y + L (k + i))⟩ with hs₂
  have hc : k + i = i + k := add_comm _ _
  have hr₁m : ∀ m, m ≠ k + i → r₁ m = s.r m := by
    intro m hm
    rw [hr₁]
    split_ifs
    · rw [Function.update_of_ne hm]
    · rfl
  have hfr : ∀ m < i, s₂.l m = s.l m ∧ s₂.r m = s.r m := by
    intro m hm
    refine ⟨Function.update_of_ne (by omega) _ _, ?_⟩
    simp only [hs₂]
    rw [Function.update_of_ne (by omega), hr₁m m (by omega)]
  set x₂ := if k = 0 then y else x with hx₂
  have hlaid₂ : Laid L i (k + 1) s₂ x₂ := by
    intro m hm
    rcases Nat.lt_succ_iff_lt_or_eq.1 hm with hm' | rfl
    · obtain ⟨h1, h2⟩ := hlaid m hm'
      have hk0 : k ≠ 0 := by omega
      simp only [hs₂]
      rw [Function.update_of_ne (by omega), Function.update_of_ne (by omega), hr₁m _ (by omega), h1, h2, hx₂, if_neg hk0]
      exact ⟨rfl, rfl⟩
    · have e : y = x₂ + upTo L i m := by
        rw [hx₂]
        split_ifs with h0
        · subst h0
          simp [upTo]
        · obtain ⟨h1, h2⟩ := hlaid (m - 1) (by omega)
          have hb : before1 N (m + i) = i + (m - 1) := by
            unfold before1
            rw [if_neg (by omega)]
            omega
          rw [hy, hb, hr₁m _ (by omega), h2]
          have : m = (m - 1) + 1 := by omega
          conv_rhs => rw [this, upTo_succ]
          ring
      simp only [hs₂, ← hc, Function.update_self]
      rw [← e]
      exact ⟨rfl, rfl⟩
  have hstep : step L nl N link i k (i + k + j) s = (match link (i + k + j) with
      | some b =>
        if b < N then
          .ok ⟨addSlice s₂.l i (i + k + j) (s₂.l b - s₂.l (k + i)), addSlice s₂.r i (i + k + j) (s₂.r b - s₂.r (k + i))⟩
        else .error .indexError
      | none =>
        match link (i + k + j + 1) with
        | some b =>
          if b ≤ N then
            .ok ⟨addSlice s₂.l i (i + k + j + 1) (s₂.l (before1 N b) - s₂.l (k + i)),
              addSlice s₂.r i (i + k + j + 1) (s₂.r (before1 N b) - s₂.r (k + i))⟩
          else .error .indexError
        | none => .ok s₂) := by
    unfold step
    simp only
    rw [if_neg (fun h => hnl h.1 h.2)]
    rfl
  have hlast := hlaid₂ k (by omega)
  obtain ⟨hf1, hf2⟩ := hfit
  rw [hstep]
  cases hl : link (i + k + j) with
  | some b =>
    obtain ⟨g1, g2, g3⟩ := hf1 b hl
    have hd : s₂.r b - s₂.r (k + i) = s₂.l b - s₂.l (k + i) := by
      rw [hc, (hfr b g2).2, (hfr b g2).1, hsp b g2, hlast.1, hlast.2, g3]
      ring
    simp only [hd]
    rw [if_pos (by omega)]
    refine ⟨_, _, rfl, ?_, shift hlaid₂ (by omega), ?_, by simp, by simp⟩
    · intro m hm
      exact ⟨(shift_frame _ _ _ _ hm).trans (hfr m hm).1, (shift_frame _ _ _ _ hm).trans (hfr m hm).2⟩
    · intro b' hb'
      cases Option.some.inj hb'
      simp only [addSlice]
      rw [if_pos (by omega), hc, (hfr b g2).1]
      ring
  | none =>
    cases hl' : link (i + k + j + 1) with
    | some b =>
      obtain ⟨g1, g2, g3⟩ := hf2 b hl hl'
      have hb : before1 N b = b - 1 := by
        unfold before1
        rw [if_neg (by omega)]
      have hlt : b - 1 < i := by omega
      have hd : s₂.r (b - 1) - s₂.r (k + i) = s₂.l (b - 1) - s₂.l (k + i) := by
        rw [hc, (hfr _ hlt).2, (hfr _ hlt).1, hsp _ hlt, hlast.1, hlast.2, g3]
        ring
      simp only [hb, hd]
      rw [if_pos (by omega)]
      refine ⟨_, _, rfl, ?_, shift hlaid₂ (by omega), by simp, ?_, by simp⟩
      · intro m hm
        exact ⟨(shift_frame _ _ _ _ hm).trans (hfr m hm).1, (shift_frame _ _ _ _ hm).trans (hfr m hm).2⟩
      · intro b' _ hb'
        cases Option.some.inj hb'
        simp only [addSlice]
        rw [if_pos (by omega), ← hd, hc, (hfr _ hlt).2]
        ring
    | none =>
      refine ⟨s₂, x₂, rfl, hfr, hlaid₂, by simp, by simp, fun _ _ => ⟨?_, ?_, ?_⟩⟩
      · intro h0
        rw [hx₂, if_neg (by omega)]
      · intro h0 hi
        rw [hx₂, if_pos h0, hy, hr₁m _ (by unfold before1; split_ifs <;> omega)]
        congr 1
        unfold before1
        rw [if_neg (by omega)]
        omega
      · intro h0 hi hN2
        rw [hx₂, if_pos h0, hy]
        have : before1 N (k + i) = N - 1 := by
          unfold before1
          rw [if_pos (by omega)]
        rw [this, hr₁m _ (by omega)]

/-- No bearing is linked to a node of the element. -/
def Free (link : ℕ → Option ℕ) (i j q : ℕ) : Prop := link (i + q + j) = none ∧ link (i + q + j + 1) = none

theorem shaft_spec {L : ℕ → ℝ} {nl : ℕ → ℕ} {N : ℕ} {link : ℕ → Option ℕ} {i j : ℕ} : ∀ (t : List ShaftEl) (k : ℕ)
    (s : Pos) (x : ℝ), (∀ q e, t[q]? = some e → nodeOf e = i + (k + q) + j) → i + k + t.length ≤ N →
    (∀ q < t.length, 0 < k + q → nl (k + q + i) ≠ nl (k + q + i - 1)) → (∀ m < i, s.r m = s.l m + L m) →
    Laid L i k s x → (∀ q < t.length, LinkFits L link i j (i + (k + q))) →
    ∃ s' x', shaftLoop L nl N link i k t s = .ok s' ∧ (∀ m < i, s'.l m = s.l m ∧ s'.r m = s.r m) ∧
      Laid L i (k + t.length) s' x' ∧
      (∀ q < t.length, ∀ b, link (i + (k + q) + j) = some b →
        (∀ q', q < q' → q' < t.length → Free link i j (k + q')) → s'.l (i + (k + q)) = s.l b) ∧
      (∀ q < t.length, ∀ b, link (i + (k + q) + j) = none → link (i + (k + q) + j + 1) = some b →
        (∀ q', q < q' → q' < t.length → Free link i j (k + q')) → s'.r (i + (k + q)) = s.r (b - 1)) ∧
      ((∀ q < t.length, Free link i j (k + q)) → (0 < k → x' = x) ∧ (k = 0 → t ≠ [] → 0 < i → x' = s.r (i - 1)) ∧
        (k = 0 → t ≠ [] → i = 0 → 2 ≤ N → x' = s.r (N - 1))) := by
  intro t
  induction t with
  | nil =>
    intro k s x _ _ _ _ hlaid _
    exact ⟨s, x, rfl, fun m _ => ⟨rfl, rfl⟩, hlaid, by simp, by simp, fun _ => ⟨fun _ => rfl, by simp, by simp⟩⟩
  | cons e t ih =>
    intro k s x hnode hN hnl hsp hlaid hfit
    simp only [List.length_cons] at hN hnl hfit ⊢
    have hn0 : nodeOf e = i + k + j := hnode 0 e rfl
    obtain ⟨s₁, x₁, e1, fr1, la1, le1, ri1, fre1⟩ := step_spec (j := j) (nl := nl) (N := N) (link := link) (by omega)
      (fun h => hnl 0 (by omega) (by omega)) hsp hlaid (hfit 0 (by omega))
    have hsp1 : ∀ m < i, s₁.r m = s₁.l m + L m := fun m hm => by rw [(fr1 m hm).1, (fr1 m hm).2, hsp m hm]
    have sh : ∀ q, k + 1 + q = k + (q + 1) := fun q => by omega
    obtain ⟨s₂, x₂, e2, fr2, la2, le2, ri2, fre2⟩ := ih (k + 1) s₁ x₁
      (fun q e' he' => by rw [sh]; exact hnode (q + 1) e' (by simpa using he')) (by omega)
      (fun q hq h => by have := hnl (q + 1) (by omega) (by omega); rwa [← sh] at this) hsp1 la1
      (fun q hq => by rw [sh]; exact hfit (q + 1) (by omega))
    -- later rows that are free leave the first ones where they are
    have keep : (∀ q', 0 < q' → q' < t.length + 1 → Free link i j (k + q')) → x₂ = x₁ := by
      intro h
      refine (fre2 fun q hq => ?_).1 (by omega)
      rw [sh]
      exact h (q + 1) (by omega) (by omega)
    have hk1 := la1 k (by omega)
    have hk2 := la2 k (by omega)
    refine ⟨s₂, x₂, ?_, fun m hm => ⟨(fr2 m hm).1.trans (fr1 m hm).1, (fr2 m hm).2.trans (fr1 m hm).2⟩, ?_, ?_, ?_, ?_⟩
    · rw [shaftLoop, hn0]
      exact BearingLemmas.bind_ok.2 ⟨s₁, e1, e2⟩
    · have : k + (t.length + 1) = k + 1 + t.length := by omega
      rw [this]
      exact la2
    · intro q hq b hb hfree
      rcases q with - | q
      · have hx := keep hfree
        have h0 := le1 b hb
        rw [add_zero, hk2.1, hx, ← hk1.1]
        exact h0
      · have hb' : b < i := ((hfit (q + 1) hq).1 b hb).2.1
        rw [← sh] at hb ⊢
        rw [le2 q (by omega) b hb fun q' h1 h2 => by rw [sh]; exact hfree (q' + 1) (by omega) (by omega)]
        exact (fr1 b hb').1
    · intro q hq b hn hb hfree
      rcases q with - | q
      · have hx := keep hfree
        have h0 := ri1 b hn hb
        rw [add_zero, hk2.2, hx, ← hk1.2]
        exact h0
      · have hb' := (hfit (q + 1) hq).2 b hn hb
        rw [← sh] at hn hb ⊢
        rw [ri2 q (by omega) b hn hb fun q' h1 h2 => by rw [sh]; exact hfree (q' + 1) (by omega) (by omega)]
        exact (fr1 (b - 1) (by omega)).2
    · intro hfree
      have hx := keep fun q' _ h2 => hfree q' h2
      obtain ⟨g1, g2, g3⟩ := fre1 (hfree 0 (by omega)).1 (hfree 0 (by omega)).2
      rw [hx]
      exact ⟨g1, fun h _ => g2 h, fun h _ => g3 h⟩

/-- What the loop makes of the shaft of number `j` that begins at row `i` and has `n` elements. -/
def Placed (L : ℕ → ℝ) (N : ℕ) (link : ℕ → Option ℕ) (i j n : ℕ) (s : Pos) : Prop :=
  ∃ x, Laid L i n s x ∧
    (∀ q < n, ∀ b, link (i + q + j) = some b → (∀ q', q < q' → q' < n → Free link i j q') → s.l (i + q) = s.l b) ∧
    (∀ q < n, ∀ b, link (i + q + j) = none → link (i + q + j + 1) = some b →
      (∀ q', q < q' → q' < n → Free link i j q') → s.r (i + q) = s.r (b - 1)) ∧
    ((∀ q < n, Free link i j q) → (0 < i → x = s.r (i - 1)) ∧ (i = 0 → 2 ≤ N → x = 0))

open Ross.Spec.CoAxial in
theorem all_spec {L : ℕ → ℝ} {nl : ℕ → ℕ} {N : ℕ} {link : ℕ → Option ℕ} : ∀ (ls : List (List ShaftEl)) (i j : ℕ) (s : Pos),
    (∀ p l, ls[p]? = some l → l ≠ [] ∧ ∀ q e, l[q]? = some e → nodeOf e = i + before ls p + q + (j + p)) →
    i + (ls.map List.length).sum ≤ N →
    (∀ p l, ls[p]? = some l → ∀ q < l.length, 0 < q →
      nl (i + before ls p + q) ≠ nl (i + before ls p + q - 1)) →
    (∀ m < i, s.r m = s.l m + L m) → (i = 0 → s.r (N - 1) = 0) →
    (∀ p l, ls[p]? = some l → ∀ q < l.length, LinkFits L link (i + before ls p) (j + p) (i + before ls p + q)) →
    ∃ s', allLoop L nl N link i ls s = .ok s' ∧ (∀ m < i, s'.l m = s.l m ∧ s'.r m = s.r m) ∧
      ∀ p l, ls[p]? = some l → Placed L N link (i + before ls p) (j + p) l.length s' := by
  intro ls
  induction ls with
  | nil =>
    intro i j s _ _ _ _ _ _
    exact ⟨s, rfl, fun m _ => ⟨rfl, rfl⟩, by simp⟩
  | cons l ls ih =>
    intro i j s hnode hN hnl hsp h0 hfit
    simp only [List.map_cons, List.sum_cons] at hN
    have b0 : before (l :: ls) 0 = 0 := by simp [before]
    have bs : ∀ p, before (l :: ls) (p + 1) = l.length + before ls p := fun p => by simp [before]
    obtain ⟨hne, hn⟩ := hnode 0 l rfl
    obtain ⟨s₁, x₁, e1, fr1, la1, le1, ri1, fre1⟩ := shaft_spec (L := L) (nl := nl) (N := N) (link := link) (i := i) (j := j)
      l 0 s 0 (fun q e he => by have := hn q e he; rw [b0] at this; omega) (by omega)
      (fun q hq h => by
        have := hnl 0 l rfl q hq (by omega)
        rw [b0] at this
        have e : 0 + q + i = i + 0 + q := by omega
        rwa [e])
      hsp (fun m hm => by omega)
      (fun q hq => by have := hfit 0 l rfl q hq; rw [b0] at this; simpa using this)
    simp only [Nat.zero_add] at la1 le1 ri1 fre1
    have hsp1 : ∀ m < i + l.length, s₁.r m = s₁.l m + L m := by
      intro m hm
      by_cases h : m < i
      · rw [(fr1 m h).1, (fr1 m h).2, hsp m h]
      · obtain ⟨g1, g2⟩ := la1 (m - i) (by omega)
        have e : i + (m - i) = m := by omega
        rw [e] at g1 g2
        rw [g1, g2]
    have hlen : 0 < l.length := List.length_pos_iff.2 hne
    obtain ⟨s₂, e2, fr2, pl2⟩ := ih (i + l.length) (j + 1) s₁
      (fun p l' hl' => by
        obtain ⟨g1, g2⟩ := hnode (p + 1) l' (by simpa using hl')
        refine ⟨g1, fun q e he => ?_⟩
        have := g2 q e he
        rw [bs] at this
        omega)
      (by omega)
      (fun p l' hl' q hq hq0 => by
        have := hnl (p + 1) l' (by simpa using hl') q hq hq0
        rw [bs, ← add_assoc] at this
        exact this)
      hsp1 (fun h => by omega)
      (fun p l' hl' q hq => by
        have := hfit (p + 1) l' (by simpa using hl') q hq
        rw [bs, ← add_assoc] at this
        have e : j + (p + 1) = j + 1 + p := by omega
        rwa [e] at this)
    refine ⟨s₂, ?_, fun m hm => ⟨(fr2 m (by omega)).1.trans (fr1 m hm).1, (fr2 m (by omega)).2.trans (fr1 m hm).2⟩, ?_⟩
    · rw [allLoop]
      exact BearingLemmas.bind_ok.2 ⟨s₁, e1, e2⟩
    · intro p l' hl'
      rcases p with - | p
      · cases Option.some.inj hl'
        rw [b0]
        simp only [add_zero]
        have hfit0 := hfit 0 l rfl
        rw [b0] at hfit0
        simp only [add_zero] at hfit0
        refine ⟨x₁, ?_, ?_, ?_, ?_⟩
        · intro m hm
          rw [(fr2 _ (by omega)).1, (fr2 _ (by omega)).2]
          exact la1 m hm
        · intro q hq b hb hfree
          have := ((hfit0 q hq).1 b hb).2.1
          rw [(fr2 _ (by omega)).1, (fr2 _ (by omega)).1, le1 q hq b hb hfree, (fr1 b this).1]
        · intro q hq b hn' hb hfree
          have := (hfit0 q hq).2 b hn' hb
          rw [(fr2 _ (by omega)).2, (fr2 _ (by omega)).2, ri1 q hq b hn' hb hfree, (fr1 (b - 1) (by omega)).2]
        · intro hfree
          obtain ⟨-, g2, g3⟩ := fre1 hfree
          constructor
          · intro hi
            rw [(fr2 _ (by omega)).2, (fr1 (i - 1) (by omega)).2]
            exact g2 trivial hne hi
          · intro hi h2
            rw [g3 trivial hne hi h2, h0 hi]
      · have := pl2 p l' (by simpa using hl')
        rw [bs, ← add_assoc]
        have e : j + (p + 1) = j + 1 + p := by omega
        rw [e]
        exact this

end Ross.CoAxialPosLemmas
