import Verif.Spec.Reduction
import Verif.Props.Assembly

/-! # Dropping every third degree of freedom -/

namespace Ross.ReductionLemmas

open Ross Ross.Spec Ross.BearingLemmas Ross.Rotor Ross.RotorLemmas Ross.ShaftLemmas Ross.Props
  Ross.Shaft6Lemmas Ross.AssemblyLemmas Matrix

theorem keptDofs_eq (n : ℕ) : keptDofs n = (List.range (n - n / 3)).map keptIdx := by
  induction n with
  | zero => rfl
  | succ n ih =>
    unfold keptDofs at ih ⊢
    rw [List.range_succ, List.filter_append, ih]
    by_cases h : n % 3 = 2
    · have e1 : n + 1 - (n + 1) / 3 = n - n / 3 := by omega
      have e2 : thirdDof n = true := by simp [thirdDof]; omega
      rw [e1]
      simp [e2]
    · have e1 : n + 1 - (n + 1) / 3 = (n - n / 3) + 1 := by omega
      have e2 : thirdDof n = false := by simp [thirdDof]; omega
      have e3 : keptIdx (n - n / 3) = n := by unfold keptIdx; omega
      rw [e1, List.range_succ]
      simp [e2, e3]

theorem keptDofs_length (n : ℕ) : (keptDofs n).length = n - n / 3 := by simp [keptDofs_eq]

theorem keptDofs_get {n p : ℕ} (h : p < n - n / 3) : (keptDofs n).getD p 0 = keptIdx p := by
  rw [keptDofs_eq, List.getD_eq_getElem?_getD, List.getElem?_eq_getElem (by simpa using h)]
  simp

theorem removeDofs_size (A : LMat) : (removeDofs A).1 = A.1 - A.1 / 3 := keptDofs_length _

theorem removeDofs_ent (A : LMat) {p q : ℕ} (hp : p < A.1 - A.1 / 3) (hq : q < A.1 - A.1 / 3) :
    (removeDofs A).ent p q = A.ent (keptIdx p) (keptIdx q) := by
  have hl := removeDofs_size A
  have : (removeDofs A).ent p q =
      A.ent ((keptDofs A.1).getD p 0) ((keptDofs A.1).getD q 0) := by
    unfold LMat.ent
    rw [dif_pos ⟨by rw [hl]; exact hp, by rw [hl]; exact hq⟩]
    rfl
  rw [this, keptDofs_get hp, keptDofs_get hq]

theorem lmat_ext {A B : LMat} (h1 : A.1 = B.1)
    (h2 : ∀ p q, p < A.1 → q < A.1 → A.ent p q = B.ent p q) : A = B := by
  obtain ⟨n, A⟩ := A
  obtain ⟨m, B⟩ := B
  simp only at h1
  subst h1
  congr 1
  ext i j
  have := h2 i j i.2 j.2
  simpa [LMat.ent] using this

theorem sum_kept (n : ℕ) (f : ℕ → ℝ) (h : ∀ i < n, i % 3 = 2 → f i = 0) :
    ∑ i ∈ Finset.range n, f i = ∑ p ∈ Finset.range (n - n / 3), f (keptIdx p) := by
  induction n with
  | zero => rfl
  | succ n ih =>
    rw [Finset.sum_range_succ, ih fun i hi => h i (by omega)]
    by_cases h' : n % 3 = 2
    · have e1 : n + 1 - (n + 1) / 3 = n - n / 3 := by omega
      rw [h n (by omega) h', e1, add_zero]
    · have e1 : n + 1 - (n + 1) / 3 = (n - n / 3) + 1 := by omega
      have e3 : keptIdx (n - n / 3) = n := by unfold keptIdx; omega
      rw [e1, Finset.sum_range_succ, e3]

/-- The motion without the third directions. -/
noncomputable def lift (x : ℕ → ℝ) (i : ℕ) : ℝ := if i % 3 = 2 then 0 else x (i - i / 3)

theorem lift_kept (x : ℕ → ℝ) (p : ℕ) : lift x (keptIdx p) = x p := by
  unfold lift keptIdx
  rw [if_neg (by omega)]
  congr 1
  omega

theorem lift_third (x : ℕ → ℝ) {i : ℕ} (h : i % 3 = 2) : lift x i = 0 := by
  unfold lift; rw [if_pos h]

theorem elemBilin_range (ds : List ℕ) (E : LMat) (x y : ℕ → ℝ) :
    elemBilin ds E.2 x y = ∑ p ∈ Finset.range E.1, ∑ q ∈ Finset.range E.1,
      x (ds.getD p 0) * E.ent p q * y (ds.getD q 0) := by
  unfold elemBilin
  rw [← Fin.sum_univ_eq_sum_range (fun p => ∑ q ∈ Finset.range E.1,
    x (ds.getD p 0) * E.ent p q * y (ds.getD q 0))]
  refine Finset.sum_congr rfl fun p _ => ?_
  rw [← Fin.sum_univ_eq_sum_range (fun q => x (ds.getD p 0) * E.ent p q * y (ds.getD q 0))]
  refine Finset.sum_congr rfl fun q _ => ?_
  simp [LMat.ent]

/-- The indices of an element in the two numberings. -/
structure Match (l₆ l₄ : List ℕ) : Prop where
  len : l₄.length = l₆.length - l₆.length / 3
  third : ∀ i < l₆.length, i % 3 = 2 → l₆.getD i 0 % 3 = 2
  kept : ∀ p < l₄.length, l₆.getD (keptIdx p) 0 = keptIdx (l₄.getD p 0)

theorem elem_reduce {l₆ l₄ : List ℕ} (hm : Match l₆ l₄) {E : LMat} (hE : E.1 = l₆.length)
    (x y : ℕ → ℝ) :
    elemBilin l₆ E.2 (lift x) (lift y) = elemBilin l₄ (removeDofs E).2 x y := by
  rw [elemBilin_range, elemBilin_range, removeDofs_size]
  rw [sum_kept]
  · refine Finset.sum_congr rfl fun p hp => ?_
    have hp := Finset.mem_range.1 hp
    rw [sum_kept]
    · refine Finset.sum_congr rfl fun q hq => ?_
      have hq := Finset.mem_range.1 hq
      rw [removeDofs_ent E hp hq, hm.kept p (by rw [hm.len, ← hE]; exact hp),
        hm.kept q (by rw [hm.len, ← hE]; exact hq), lift_kept, lift_kept]
    · intro j hj h3
      rw [lift_third y (hm.third j (hE ▸ hj) h3), mul_zero]
  · intro i hi h3
    refine Finset.sum_eq_zero fun q _ => ?_
    rw [lift_third x (hm.third i (hE ▸ hi) h3), zero_mul, zero_mul]

/-! ### Elements -/

/-- The bending counterpart of an element. -/
def drop : Elm → Elm
  | .shaft e => .shaft (dropShaft e)
  | .disk e => .disk (dropDisk e)
  | .brg b => .brg (dropBrg b)
  | .pm p => .pm (dropPm p)

theorem drop_n (e : Elm) : (drop e).n = e.n := by
  rcases e with e | e | (b | b) | (p | p) <;> rfl

theorem drop_tag (e : Elm) : (drop e).tag = e.tag := by
  rcases e with e | e | (b | b) | (p | p) <;> rfl

/-- Elements of a rotor with six degrees of freedom per node. -/
def Six (N : ℕ) : Elm → Prop
  | .shaft e => e.six = true ∧ e.s.n.getD 0 + 1 ≤ N
  | .disk e => e.six = true ∧ e.d.n ≤ N
  | .brg (.brg _ _) => False
  | _ => True

theorem slots (N n : ℕ) :
    slot 6 N ("x", n) = keptIdx (slot 4 N ("x", n)) ∧ slot 6 N ("y", n) = keptIdx (slot 4 N ("y", n)) ∧
    slot 6 N ("z", n) % 3 = 2 := by
  unfold slot keptIdx
  by_cases h : n ≤ N
  · simp [h, nodeLetters]
    omega
  · simp [h, supportLetters]
    omega

theorem slots_node {N n : ℕ} (h : n ≤ N) :
    slot 6 N ("alpha", n) = keptIdx (slot 4 N ("alpha", n)) ∧
    slot 6 N ("beta", n) = keptIdx (slot 4 N ("beta", n)) ∧
    slot 6 N ("theta", n) % 3 = 2 := by
  unfold slot keptIdx
  simp [h, nodeLetters]
  omega

theorem match_append {a a' b b' : List ℕ} (h : Match a b) (h' : Match a' b') (h3 : a.length % 3 = 0) :
    Match (a ++ a') (b ++ b') := by
  have l := h.len
  have l' := h'.len
  have g : ∀ (u v : List ℕ) (i : ℕ), (u ++ v).getD i 0 =
      if i < u.length then u.getD i 0 else v.getD (i - u.length) 0 := by
    intro u v i
    by_cases hi : i < u.length
    · rw [if_pos hi, List.getD_eq_getElem?_getD, List.getD_eq_getElem?_getD, List.getElem?_append_left hi]
    · rw [if_neg hi, List.getD_eq_getElem?_getD, List.getD_eq_getElem?_getD, List.getElem?_append_right (by omega)]
  refine ⟨by simp only [List.length_append]; omega, fun i hi h2 => ?_, fun p hp => ?_⟩
  · rw [List.length_append] at hi
    rw [g]
    by_cases hi' : i < a.length
    · rw [if_pos hi']; exact h.third i hi' h2
    · rw [if_neg hi']; exact h'.third _ (by omega) (by omega)
  · rw [List.length_append] at hp
    rw [g, g]
    by_cases hp' : p < b.length
    · rw [if_pos hp', if_pos (by unfold keptIdx; omega)]; exact h.kept p hp'
    · rw [if_neg hp', if_neg (by unfold keptIdx; omega), ← h'.kept (p - b.length) (by omega)]
      congr 1
      unfold keptIdx; omega

theorem match_of {N : ℕ} {e : Elm} (h : Six N e) :
    Match (globalOf 6 N e) (globalOf 4 N (drop e)) := by
  have hs := slots N
  have pair : ∀ n, Match ([slot 6 N ("x", n), slot 6 N ("y", n), slot 6 N ("z", n)])
      ([slot 4 N ("x", n), slot 4 N ("y", n)]) := by
    intro n
    obtain ⟨s1, s2, s3⟩ := hs n
    refine ⟨by simp, fun i hi h3 => ?_, fun p hp => ?_⟩
    · simp at hi; interval_cases i <;> simp_all
    · simp at hp; interval_cases p <;> simp_all [keptIdx]
  have node : ∀ n ≤ N, Match
      ([slot 6 N ("x", n), slot 6 N ("y", n), slot 6 N ("z", n), slot 6 N ("alpha", n),
        slot 6 N ("beta", n), slot 6 N ("theta", n)])
      ([slot 4 N ("x", n), slot 4 N ("y", n), slot 4 N ("alpha", n), slot 4 N ("beta", n)]) := by
    intro n hn
    obtain ⟨s1, s2, s3⟩ := hs n
    obtain ⟨t1, t2, t3⟩ := slots_node hn
    refine ⟨by simp, fun i hi h3 => ?_, fun p hp => ?_⟩
    · simp at hi; interval_cases i <;> simp_all
    · simp at hp; interval_cases p <;> simp_all [keptIdx]
  have pm2 : ∀ n, Match ([slot 6 N ("x", n), slot 6 N ("y", n)])
      ([slot 4 N ("x", n), slot 4 N ("y", n)]) := by
    intro n
    obtain ⟨s1, s2, s3⟩ := hs n
    refine ⟨by simp, fun i hi h3 => ?_, fun p hp => ?_⟩
    · simp at hi; interval_cases i <;> simp_all
    · simp at hp; interval_cases p <;> simp_all [keptIdx]
  rcases e with e | e | (b | b) | (p | p)
  · obtain ⟨-, hn⟩ := h
    exact match_append (node (e.s.n.getD 0) (by omega)) (node (e.s.n.getD 0 + 1) hn) (by simp)
  · exact node e.d.n h.2
  · exact h.elim
  · show Match ((attach 6 (.brg (.brg6 b)) b.base.n).map (slot 6 N))
      ((attach 4 (.brg (.brg false b.base)) b.base.n).map (slot 4 N))
    cases hl : b.base.n_link with
    | none =>
      have hl1 : (BrgEl.brg6 b).n_link = none := hl
      have hl2 : (BrgEl.brg false b.base).n_link = none := hl
      simp only [attach, hl1, hl2]
      exact pair b.base.n
    | some k =>
      have hl1 : (BrgEl.brg6 b).n_link = some k := hl
      have hl2 : (BrgEl.brg false b.base).n_link = some k := hl
      simp only [attach, hl1, hl2]
      by_cases hk : k = b.base.n
      · rw [if_pos hk, if_pos hk]
        exact pair b.base.n
      · rw [if_neg hk, if_neg hk, List.map_append, List.map_append]
        exact match_append (pair b.base.n) (pair k) (by simp [dofsAt, supportLetters])
  · exact pm2 (p.n.getD 0)
  · exact pair (p.n.getD 0)

/-! ### Element matrices -/

theorem removeDofs_submatrix {n m : ℕ} (hm : m = n - n / 3) (A : Matrix (Fin n) (Fin n) ℝ)
    (f : Fin m → Fin n) (hf : ∀ p, (f p : ℕ) = keptIdx p) :
    removeDofs ⟨n, A⟩ = ⟨m, A.submatrix f f⟩ := by
  refine lmat_ext (by rw [removeDofs_size]; exact hm.symm) fun p q hp hq => ?_
  rw [removeDofs_size] at hp hq
  rw [removeDofs_ent _ hp hq]
  simp only at hp hq
  have hp' : p < m := by omega
  have hq' : q < m := by omega
  have e1 := hf ⟨p, hp'⟩
  have e2 := hf ⟨q, hq'⟩
  simp only at e1 e2
  unfold LMat.ent
  simp only [← e1, ← e2]
  rw [dif_pos ⟨(f _).2, (f _).2⟩, dif_pos ⟨hp', hq'⟩]
  rfl

theorem remove12 (A : Matrix (Fin 12) (Fin 12) ℝ) :
    removeDofs ⟨12, A⟩ = ⟨8, A.submatrix bend bend⟩ :=
  removeDofs_submatrix (by norm_num) A bend fun p => by fin_cases p <;> rfl

theorem remove6 (A : Matrix (Fin 6) (Fin 6) ℝ) :
    removeDofs ⟨6, A⟩ = ⟨4, A.submatrix ![0, 1, 3, 4] ![0, 1, 3, 4]⟩ :=
  removeDofs_submatrix (by norm_num) A _ fun p => by fin_cases p <;> rfl

theorem remove3 (A : Matrix (Fin 3) (Fin 3) ℝ) :
    removeDofs ⟨3, A⟩ = ⟨2, A.submatrix ![0, 1] ![0, 1]⟩ :=
  removeDofs_submatrix (by norm_num) A _ fun p => by fin_cases p <;> rfl

theorem remove2 (A : Matrix (Fin 2) (Fin 2) ℝ) : removeDofs ⟨2, A⟩ = ⟨2, A⟩ := by
  rw [removeDofs_submatrix (m := 2) (by norm_num) A id fun p => by fin_cases p <;> rfl]
  rfl

theorem remove_link (l : Option ℕ) (xx xy yx yy zz : ℝ) :
    removeDofs (linkMat l !![xx, xy, 0; yx, yy, 0; 0, 0, zz]) = linkMat l !![xx, xy; yx, yy] := by
  cases l with
  | none =>
    unfold linkMat
    rw [remove3]
    congr 1
    ext i j; fin_cases i <;> fin_cases j <;> rfl
  | some k =>
    unfold linkMat
    refine (remove6 _).trans ?_
    show (⟨4, _⟩ : LMat) = ⟨4, _⟩
    congr 1
    ext i j; fin_cases i <;> fin_cases j <;> rfl

/-- The matrix of the bending counterpart is the reduced one. -/
def Reduces (mat : Elm → Res LMat) (e : Elm) : Prop :=
  ∀ E, mat e = .ok E → mat (drop e) = .ok (removeDofs E)

theorem reduces_M {N : ℕ} {e : Elm} (h : Six N e) (ω : ℝ) : Reduces (Elm.M ω) e := by
  intro E hE
  rcases e with ⟨six, s⟩ | ⟨six, d⟩ | (b | b) | (p | p)
  · obtain ⟨rfl, -⟩ := h
    cases hE
    rw [remove12, C10_mass]; rfl
  · obtain ⟨rfl, -⟩ := h
    cases hE
    rw [remove6]
    show Except.ok (⟨4, d.M⟩ : LMat) = _
    congr 2
    ext i j; fin_cases i <;> fin_cases j <;> rfl
  · exact h.elim
  · obtain ⟨xx, h1, hE⟩ := bind_ok.1 hE
    obtain ⟨yy, h2, hE⟩ := bind_ok.1 hE
    obtain ⟨xy, h3, hE⟩ := bind_ok.1 hE
    obtain ⟨yx, h4, hE⟩ := bind_ok.1 hE
    obtain ⟨zz, h5, hE⟩ := bind_ok.1 hE
    cases Except.ok.inj hE
    rw [remove_link]
    exact bind_ok.2 ⟨_, h1, bind_ok.2 ⟨_, h2, bind_ok.2 ⟨_, h3, bind_ok.2 ⟨_, h4, rfl⟩⟩⟩⟩
  · cases hE
    rw [remove2]; rfl
  · cases hE
    rw [remove3]
    show Except.ok (⟨2, PointMass.M _⟩ : LMat) = _
    congr 2
    ext i j; fin_cases i <;> fin_cases j <;> rfl

theorem reduces_K {N : ℕ} {e : Elm} (h : Six N e) (ω : ℝ) : Reduces (Elm.K ω) e := by
  intro E hE
  rcases e with ⟨six, s⟩ | ⟨six, d⟩ | (b | b) | (p | p)
  · obtain ⟨rfl, -⟩ := h
    cases hE
    rw [remove12, C10_stiffness]; rfl
  · obtain ⟨rfl, -⟩ := h
    cases hE
    rw [remove6]
    show Except.ok (⟨4, d.K⟩ : LMat) = _
    congr 2
  · exact h.elim
  · obtain ⟨xx, h1, hE⟩ := bind_ok.1 hE
    obtain ⟨yy, h2, hE⟩ := bind_ok.1 hE
    obtain ⟨xy, h3, hE⟩ := bind_ok.1 hE
    obtain ⟨yx, h4, hE⟩ := bind_ok.1 hE
    obtain ⟨zz, h5, hE⟩ := bind_ok.1 hE
    cases Except.ok.inj hE
    rw [remove_link]
    exact bind_ok.2 ⟨_, h1, bind_ok.2 ⟨_, h2, bind_ok.2 ⟨_, h3, bind_ok.2 ⟨_, h4, rfl⟩⟩⟩⟩
  · cases hE
    rw [remove2]; rfl
  · cases hE
    rw [remove3]
    show Except.ok (⟨2, PointMass.K _⟩ : LMat) = _
    congr 2

theorem reduces_C {N : ℕ} {e : Elm} (h : Six N e) (ω : ℝ) : Reduces (Elm.C ω) e := by
  intro E hE
  rcases e with ⟨six, s⟩ | ⟨six, d⟩ | (b | b) | (p | p)
  · obtain ⟨rfl, -⟩ := h
    cases hE
    rw [remove12, C10_damping]; rfl
  · obtain ⟨rfl, -⟩ := h
    cases hE
    rw [remove6]
    show Except.ok (⟨4, d.C⟩ : LMat) = _
    congr 2
  · exact h.elim
  · obtain ⟨xx, h1, hE⟩ := bind_ok.1 hE
    obtain ⟨yy, h2, hE⟩ := bind_ok.1 hE
    obtain ⟨xy, h3, hE⟩ := bind_ok.1 hE
    obtain ⟨yx, h4, hE⟩ := bind_ok.1 hE
    obtain ⟨zz, h5, hE⟩ := bind_ok.1 hE
    cases Except.ok.inj hE
    rw [remove_link]
    exact bind_ok.2 ⟨_, h1, bind_ok.2 ⟨_, h2, bind_ok.2 ⟨_, h3, bind_ok.2 ⟨_, h4, rfl⟩⟩⟩⟩
  · cases hE
    rw [remove2]; rfl
  · cases hE
    rw [remove3]
    show Except.ok (⟨2, PointMass.C _⟩ : LMat) = _
    congr 2

theorem reduces_G {N : ℕ} {e : Elm} (h : Six N e)
    (hg : ∀ s, e = .shaft s → s.s.G₆.submatrix bend bend = s.s.G) : Reduces Elm.G e := by
  intro E hE
  rcases e with ⟨six, s⟩ | ⟨six, d⟩ | (b | b) | (p | p)
  · obtain ⟨rfl, -⟩ := h
    cases hE
    rw [remove12, hg _ rfl]; rfl
  · obtain ⟨rfl, -⟩ := h
    cases hE
    rw [remove6]
    show Except.ok (⟨4, d.G⟩ : LMat) = _
    congr 2
    ext i j; fin_cases i <;> fin_cases j <;> rfl
  · exact h.elim
  · obtain ⟨K, hK, hE⟩ := bind_ok.1 hE
    cases Except.ok.inj hE
    have := reduces_K (N := 0) (e := .brg (.brg6 b)) trivial 0 K hK
    refine bind_ok.2 ⟨_, this, ?_⟩
    congr 1
    refine lmat_ext (by rw [removeDofs_size]; exact (removeDofs_size ⟨K.1, 0⟩).symm) fun p q hp hq => ?_
    have hp' : p < K.1 - K.1 / 3 := by rw [← removeDofs_size]; exact hp
    have hq' : q < K.1 - K.1 / 3 := by rw [← removeDofs_size]; exact hq
    rw [removeDofs_ent ⟨K.1, 0⟩ hp' hq']
    simp [LMat.ent]
  · cases hE
    rw [remove2]; rfl
  · cases hE
    rw [remove3]
    show Except.ok (⟨2, PointMass.G _⟩ : LMat) = _
    congr 2

/-! ### Rotors -/

variable {pd pd' : Pandas} {a₆ a₄ : RotorArgs} {r₆ r₄ : Rotor} {fuel fuel' : ℕ}

theorem mapIdx_drop {α : Type} (l : List α) (f : ℕ → α → α) (d : α → α)
    (h : ∀ i x, f i (d x) = d (f i x)) : (l.map d).mapIdx f = (l.mapIdx f).map d := by
  apply List.ext_getElem
  · simp
  · intro i h1 h2
    simp [h]

theorem numberShaft_drop (l : List ShaftEl) :
    numberShaft (l.map dropShaft) = (numberShaft l).map dropShaft :=
  mapIdx_drop _ _ _ fun _ _ => rfl

theorem parts_drop (hs : SameBending a₆ a₄) :
    (parts a₄).sh = (parts a₆).sh.map dropShaft ∧ (parts a₄).dk = (parts a₆).dk.map dropDisk ∧
    (parts a₄).br = (parts a₆).br.map dropBrg ∧ (parts a₄).pm = (parts a₆).pm.map dropPm := by
  unfold parts
  rw [hs.shaft, hs.disks, hs.bearings, hs.pms]
  refine ⟨?_, ?_, ?_, ?_⟩
  · show sortShaft (numberShaft _) = (sortShaft (numberShaft _)).map dropShaft
    rw [numberShaft_drop]
    unfold sortShaft
    rw [List.map_mergeSort]
    intro x _ y _
    rfl
  · exact mapIdx_drop _ _ _ fun i x => rfl
  · show sortBearings (tagBearings _) = (sortBearings (tagBearings _)).map dropBrg
    have : tagBearings (a₆.bearings.map dropBrg) = (tagBearings a₆.bearings).map dropBrg := by
      refine mapIdx_drop _ _ _ fun i x => ?_
      cases x <;> rfl
    rw [this]
    unfold sortBearings
    rw [List.map_mergeSort]
    intro x _ y _
    cases x <;> cases y <;> rfl
  · refine mapIdx_drop _ _ _ fun i x => ?_
    cases x <;> rfl

theorem elements_drop (h6 : init pd fuel a₆ = some (.ok r₆)) (h4 : init pd' fuel' a₄ = some (.ok r₄))
    (hs : SameBending a₆ a₄) : r₄.elements = r₆.elements.map drop := by
  obtain ⟨p1, p2, p3, p4⟩ := parts_drop hs
  have b6 := init_ok h6
  have b4 := init_ok h4
  rw [elements_eq' b4, elements_eq' b6, b4.shaft, b4.disks, b4.bearings, b4.pms, b6.shaft, b6.disks,
    b6.bearings, b6.pms, p1, p2, p3, p4]
  simp [List.map_append, Function.comp_def, drop]

theorem dof_drop (h4 : init pd' fuel' a₄ = some (.ok r₄)) (hs : SameBending a₆ a₄) :
    r₄.number_dof = 4 := by
  have b4 := init_ok h4
  obtain ⟨c1, c2, c3, -⟩ := check_ok b4.dof
  rcases c2 with h | h
  · exact h
  exfalso
  obtain ⟨e, t, he⟩ := List.exists_cons_of_ne_nil c1
  have hm : e ∈ r₄.shaft := by rw [he]; exact List.mem_cons_self
  have h1 := c3 e hm
  rw [b4.shaft, (parts_drop hs).1] at hm
  obtain ⟨e', -, rfl⟩ := List.mem_map.1 hm
  rw [h] at h1
  simp [dropShaft] at h1

theorem end_drop (h6 : init pd fuel a₆ = some (.ok r₆)) (h4 : init pd' fuel' a₄ = some (.ok r₄))
    (hs : SameBending a₆ a₄) : shaftEnd r₄ = shaftEnd r₆ := by
  unfold shaftEnd
  rw [(init_ok h4).shaft, (init_ok h6).shaft, (parts_drop hs).1, List.map_map]
  rfl

theorem size_drop (h6 : init pd fuel a₆ = some (.ok r₆)) (h4 : init pd' fuel' a₄ = some (.ok r₄))
    (hs : SameBending a₆ a₄) (hn : r₆.number_dof = 6) : r₄.ndof = r₆.ndof - r₆.ndof / 3 := by
  have e : r₄.pms.length = r₆.pms.length := by
    rw [(init_ok h4).pms, (init_ok h6).pms, (parts_drop hs).2.2.2, List.length_map]
  rw [ndof_eq (init_ok h4), ndof_eq (init_ok h6), ← shaftEnd_last h4, ← shaftEnd_last h6,
    end_drop h6 h4 hs, dof_drop h4 hs, hn, e]
  unfold size
  omega

theorem six_of (h6 : init pd fuel a₆ = some (.ok r₆)) (hn : r₆.number_dof = 6) {e : Elm}
    (he : e ∈ r₆.elements) : Six (shaftEnd r₆) e := by
  have hb := init_ok h6
  have hl : shaftEnd r₆ = lastNode r₆.shaft + 1 := by rw [shaftEnd_last h6]; rfl
  rcases e with e | e | (b | b) | p
  · have := shaft_six h6 he
    rw [hn] at this
    refine ⟨by simpa using this, ?_⟩
    rcases (mem_elements hb _).1 he with ⟨s, hs, h⟩ | ⟨s, hs, h⟩ | ⟨s, hs, h⟩ | ⟨s, hs, h⟩ <;> cases h
    have := node_le_last hb hs
    rw [hl]
    unfold nodeOf at this
    omega
  · have := disk_six h6 he
    rw [hn] at this
    refine ⟨by simpa using this, ?_⟩
    rcases (mem_elements hb _).1 he with ⟨s, hs, h⟩ | ⟨s, hs, h⟩ | ⟨s, hs, h⟩ | ⟨s, hs, h⟩ <;> cases h
    have := disk_le hb hs
    rw [hl]
    exact this
  · have := brg_six h6 he
    simp only at this
    omega
  · trivial
  · trivial

theorem fits_six (hn : r₆.number_dof = 6) : ∀ e ∈ r₆.elements, Fits r₆.number_dof e := by
  intro e _
  rw [hn]
  rcases e with e | e | b | (p | p) <;> first | trivial | rfl

theorem fits_drop (h6 : init pd fuel a₆ = some (.ok r₆)) (h4 : init pd' fuel' a₄ = some (.ok r₄))
    (hs : SameBending a₆ a₄) : ∀ e ∈ r₄.elements, Fits r₄.number_dof e := by
  intro e he
  rw [elements_drop h6 h4 hs] at he
  obtain ⟨e', -, rfl⟩ := List.mem_map.1 he
  rcases e' with e | e | b | (p | p) <;> trivial

theorem bilin_single {N : ℕ} (A : Matrix (Fin N) (Fin N) ℝ) (i j : Fin N) :
    bilin A (fun k => if k = i then 1 else 0) (fun k => if k = j then 1 else 0) = A i j := by
  unfold bilin
  rw [Finset.sum_eq_single i, Finset.sum_eq_single j]
  · simp
  · intro b _ hb
    have : (b : ℕ) ≠ j := fun h => hb (Fin.ext h)
    simp [this]
  · simp
  · intro b _ hb
    have : (b : ℕ) ≠ i := fun h => hb (Fin.ext h)
    simp [this]
  · simp

theorem lift_single (p : ℕ) :
    lift (fun k => if k = p then (1 : ℝ) else 0) = fun k => if k = keptIdx p then 1 else 0 := by
  funext i
  unfold lift keptIdx
  by_cases h : i % 3 = 2
  · rw [if_pos h, if_neg (by omega)]
  · rw [if_neg h]
    by_cases h' : i - i / 3 = p
    · show (if i - i / 3 = p then (1 : ℝ) else 0) = _
      rw [if_pos h', if_pos (by omega)]
    · show (if i - i / 3 = p then (1 : ℝ) else 0) = _
      rw [if_neg h', if_neg (by omega)]

/-- Assembly commutes with the reduction. -/
theorem assemble_reduce (h6 : init pd fuel a₆ = some (.ok r₆)) (h4 : init pd' fuel' a₄ = some (.ok r₄))
    (hs : SameBending a₆ a₄) (hn : r₆.number_dof = 6) (p : Elm → Bool) (hp : ∀ e, p (drop e) = p e)
    {mat : Elm → Res LMat} (hred : ∀ e ∈ r₆.elements, Reduces mat e)
    {B : Matrix (Fin r₆.ndof) (Fin r₆.ndof) ℝ}
    (hB : assemble r₆.ndof mat (r₆.placed.filter fun z => p z.1) = .ok B) :
    ∃ B', assemble r₄.ndof mat (r₄.placed.filter fun z => p z.1) = .ok B' ∧
      removeDofs ⟨r₆.ndof, B⟩ = ⟨r₄.ndof, B'⟩ := by
  obtain ⟨k1, k2⟩ := assembled h6 (fits_six hn) p hB
  have hel : r₄.elements.filter p = (r₆.elements.filter p).map drop := by
    rw [elements_drop h6 h4 hs, List.filter_map]
    congr 2
    funext e
    exact hp e
  have hsz := size_drop h6 h4 hs hn
  have hd := dof_drop h4 hs
  have hend := end_drop h6 h4 hs
  have hmatch : ∀ e ∈ r₆.elements, Match (globalOf r₆.number_dof (shaftEnd r₆) e)
      (globalOf r₄.number_dof (shaftEnd r₄) (drop e)) := by
    intro e he
    rw [hn, hd, hend]
    exact match_of (six_of h6 hn he)
  obtain ⟨B', hB'⟩ := (assembled_iff h4 (fits_drop h6 h4 hs) (mat := mat) p).2 (by
    intro e' he'
    rw [hel] at he'
    obtain ⟨e, he, rfl⟩ := List.mem_map.1 he'
    have he0 := List.mem_of_mem_filter he
    obtain ⟨E, hE, hl, hlt⟩ := k1 e he
    have hm := hmatch e he0
    refine ⟨_, hred e he0 E hE, by rw [removeDofs_size, hl, hm.len], fun d hd' => ?_⟩
    obtain ⟨i, hi, rfl⟩ := List.getElem_of_mem hd'
    have hk := hm.kept i hi
    have hi6 : keptIdx i < (globalOf r₆.number_dof (shaftEnd r₆) e).length := by
      have := hm.len
      unfold keptIdx; omega
    rw [List.getD_eq_getElem?_getD, List.getD_eq_getElem?_getD, List.getElem?_eq_getElem hi,
      List.getElem?_eq_getElem hi6, Option.getD_some, Option.getD_some] at hk
    have := hlt _ (List.getElem_mem hi6)
    rw [hk] at this
    rw [hsz]
    unfold keptIdx at this
    omega)
  refine ⟨B', hB', ?_⟩
  obtain ⟨-, k4⟩ := assembled h4 (fits_drop h6 h4 hs) p hB'
  have key : ∀ x y, bilin B (lift x) (lift y) = bilin B' x y := by
    intro x y
    rw [k2, k4, hel, List.map_map]
    refine congrArg List.sum (List.map_congr_left fun e he => ?_)
    have he0 := List.mem_of_mem_filter he
    obtain ⟨E, hE, hl, hlt⟩ := k1 e he
    show workOf _ _ mat e _ _ = workOf _ _ mat (drop e) x y
    unfold workOf
    rw [hE, hred e he0 E hE]
    exact elem_reduce (hmatch e he0) hl x y
  refine lmat_ext (by rw [removeDofs_size]; exact hsz.symm) fun i j hi hj => ?_
  rw [removeDofs_size] at hi hj
  rw [removeDofs_ent _ hi hj]
  simp only at hi hj
  have hi4 : i < r₄.ndof := by omega
  have hj4 : j < r₄.ndof := by omega
  have hi6 : keptIdx i < r₆.ndof := by unfold keptIdx; omega
  have hj6 : keptIdx j < r₆.ndof := by unfold keptIdx; omega
  have e1 := bilin_single B' ⟨i, hi4⟩ ⟨j, hj4⟩
  have e2 := bilin_single B ⟨keptIdx i, hi6⟩ ⟨keptIdx j, hj6⟩
  unfold LMat.ent
  rw [dif_pos ⟨hi6, hj6⟩, dif_pos ⟨hi4, hj4⟩]
  show B ⟨keptIdx i, hi6⟩ ⟨keptIdx j, hj6⟩ = B' ⟨i, hi4⟩ ⟨j, hj4⟩
  rw [← e1, ← e2, ← key, lift_single, lift_single]

end Ross.ReductionLemmas
