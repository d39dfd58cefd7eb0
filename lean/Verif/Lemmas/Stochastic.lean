import Verif.Spec.Stochastic

/-! # Lemmas on random elements -/

namespace Ross.StochasticLemmas

open Stochastic Persist Spec

variable {N : ℕ}

theorem len_num (s : Sample N ℝ) (h : s.isRandom = true) : s.num.len = .ok N := by
  cases s with
  | fixed a => simp [Sample.isRandom] at h
  | random f => simp [Sample.num, SVal.len]

theorem len_mat (s : Sample N Material) (h : s.isRandom = true) : s.mat.len = .ok N := by
  cases s with
  | fixed a => simp [Sample.isRandom] at h
  | random f => simp [Sample.mat, SVal.len]

theorem len_numOpt (s : Option (Sample N ℝ)) (h : randomOpt s = true) : (numOpt s).len = .ok N := by
  cases s with
  | none => simp [randomOpt] at h
  | some s => exact len_num s h

theorem pick_num (r : List String) (i : Fin N) (k : String) (s : Sample N ℝ)
    (h : k ∈ r ↔ s.isRandom = true) : pick r i (k, s.num) = .ok (.val (.num (s.draw i))) := by
  cases s with
  | fixed a => simp [Sample.isRandom] at h; simp [pick, h, Sample.num, Sample.draw]
  | random f => simp [Sample.isRandom] at h; simp [pick, h, Sample.num, Sample.draw, SVal.get]

theorem pick_mat (r : List String) (i : Fin N) (k : String) (s : Sample N Material)
    (h : k ∈ r ↔ s.isRandom = true) : pick r i (k, s.mat) = .ok (.val (.mat (s.draw i))) := by
  cases s with
  | fixed a => simp [Sample.isRandom] at h; simp [pick, h, Sample.mat, Sample.draw]
  | random f => simp [Sample.isRandom] at h; simp [pick, h, Sample.mat, Sample.draw, SVal.get]

/-- A number, or `None`. -/
def ofNum? : Option ℝ → Val
  | some x => .num x
  | none => .null

theorem pick_numOpt (r : List String) (i : Fin N) (k : String) (s : Option (Sample N ℝ))
    (h : k ∈ r ↔ randomOpt s = true) :
    pick r i (k, numOpt s) = .ok (.val (ofNum? (s.map (·.draw i)))) := by
  cases s with
  | none => simp [randomOpt] at h; simp [pick, h, numOpt, ofNum?]
  | some s => exact pick_num r i k s h

theorem pick_val (r : List String) (i : ℕ) (k : String) (v : Val) (h : k ∉ r) :
    pick r i (k, .val v) = .ok (.val v) := by simp [pick, h]

theorem opt_ofNum? (t : Table) (k : String) (x : Option ℝ) (h : t.get? k = some (ofNum? x)) :
    opt asNum t k = .ok x := by
  cases x <;> simp [opt, h, ofNum?, asNum] <;> rfl

theorem newArgs_ok (r : List String) (d : Attrs) (row : Fin N → List SVal) (hne : r ≠ [])
    (hlen : ∀ k ∈ r, ∃ v, d.get? k = some v ∧ v.len = .ok N)
    (hrow : ∀ i : Fin N, d.mapM (pick r i) = .ok (row i)) :
    newArgs r d = .ok ((List.finRange N).map row) := by
  cases r with
  | nil => exact absurd rfl hne
  | cons k t =>
    obtain ⟨v, hv, hl⟩ := hlen k (by simp)
    simp only [newArgs, hv, hl]
    rw [← List.map_coe_finRange_eq_range, List.mapM_map]
    have : ∀ l : List (Fin N), l.mapM ((fun (i : ℕ) => d.mapM (pick (k :: t) i)) ∘ fun (x : Fin N) => (x : ℕ))
        = .ok (l.map row) := by
      intro l
      induction l with
      | nil => rfl
      | cons a l ih => rw [List.mapM_cons, ih]; simp only [Function.comp, hrow]; rfl
    exact this _

theorem iterate_ok {α : Type} (params : List String) (call : Table → Res α) (e : StElement)
    (row : Fin N → List Val) (f : Fin N → Res α) (hne : e.is_random ≠ [])
    (hlen : ∀ k ∈ e.is_random, ∃ v, e.attribute_dict.get? k = some v ∧ v.len = .ok N)
    (hrow : ∀ i : Fin N, e.attribute_dict.mapM (pick e.is_random i) = .ok ((row i).map .val))
    (hl : ∀ i, (row i).length ≤ params.length)
    (hcall : ∀ i, call (params.zip (row i)) = f i) :
    iterate params call e = (List.finRange N).mapM f := by
  unfold iterate
  rw [newArgs_ok e.is_random e.attribute_dict (fun i => (row i).map .val) hne hlen hrow]
  simp only [List.mapM_map]
  congr 1
  funext i
  have hp : ∀ l : List Val, (l.map SVal.val).mapM SVal.plain = .ok l := by
    intro l
    induction l with
    | nil => rfl
    | cons a l ih => rw [List.map_cons, List.mapM_cons, ih]; rfl
  simp only [Function.comp, make, positional, List.length_map, Nat.not_lt.2 (hl i), if_false, hp, hcall]

theorem mem_default (a b : String) (v : SVal) (r : List String) (k : String) :
    (k ∈ if v.isNone then alsoRandom a b r else r) ↔ k ∈ r ∨ (v.isNone = true ∧ k = b ∧ a ∈ r) := by
  unfold alsoRandom
  split
  · split
    · simp_all
    · rename_i h
      constructor
      · exact Or.inl
      · rintro (h' | ⟨_, rfl, h'⟩)
        · exact h'
        · by_contra h''; exact h ⟨h', h''⟩
  · simp_all

theorem isNone_num (s : Sample N ℝ) : s.num.isNone = false := by cases s <;> rfl

theorem isNone_numOpt (s : Option (Sample N ℝ)) : (numOpt s).isNone = s.isNone := by
  rcases s with _ | s
  · rfl
  · exact isNone_num s

theorem default_numOpt (s : Option (Sample N ℝ)) (t : Sample N ℝ) :
    (if (numOpt s).isNone then t.num else numOpt s) = (s.getD t).num := by
  rcases s with _ | s
  · rfl
  · simp [numOpt, isNone_num]

theorem isIterable_num (s : Sample N ℝ) : s.num.isIterable = s.isRandom := by cases s <;> rfl

theorem isIterable_numOpt (s : Option (Sample N ℝ)) : (numOpt s).isIterable = randomOpt s := by
  rcases s with _ | s
  · rfl
  · exact isIterable_num s

theorem mapM_okMap {α β : Type} (l : List α) (f : α → β) :
    l.mapM (fun x => (.ok (f x) : Res β)) = .ok (l.map f) := by
  induction l with
  | nil => rfl
  | cons a l ih => rw [List.mapM_cons, ih]; rfl

variable {F : ℕ}

/-- The value of a coefficient. -/
def ofCoef : Coef → Val
  | .scalar x => .num x
  | .list l => .arr l

/-- The value of a coefficient, or `None`. -/
def ofCoef? : Option Coef → Val
  | some c => ofCoef c
  | none => .null

theorem isNone_value (s : CoefSample N F) : s.value.isNone = false := by
  rcases s with (_ | _) | _ | _ <;> rfl

theorem isNone_coefOpt (s : Option (CoefSample N F)) : (coefOpt s).isNone = s.isNone := by
  rcases s with _ | s
  · rfl
  · exact isNone_value s

theorem default_coefOpt (s : Option (CoefSample N F)) (t : CoefSample N F) :
    (if (coefOpt s).isNone then t.value else coefOpt s) = (s.getD t).value := by
  rcases s with _ | s
  · rfl
  · simp [coefOpt, isNone_value]

/-- The argument that a coefficient gives in sample `i`, when the samples are numbers or when they are tables. -/
def pickAs (tab : Bool) (r : List String) (i : ℕ) (kv : String × SVal) : Res SVal :=
  if tab then pickColumn r i kv else pick r i kv

/-- The form of the random coefficients. -/
def Form (tab : Bool) (c : CoefSample N F) : Prop := if tab then c.Tabular else c.Plain

theorem pickAs_coef (tab : Bool) (r : List String) (i : Fin N) (k : String) (s : CoefSample N F)
    (hf : Form tab s) (h : k ∈ r ↔ s.isRandom = true) :
    pickAs tab r i (k, s.value) = .ok (.val (ofCoef (s.draw i))) := by
  rcases s with c | f | f
  · have hk : k ∉ r := by rw [h]; simp [CoefSample.isRandom]
    cases tab <;> rcases c with x | l <;>
      simp [pickAs, pick, pickColumn, hk, CoefSample.value, CoefSample.draw, ofCoef]
  · have hk : k ∈ r := by rw [h]; rfl
    cases tab
    · simp [pickAs, pick, hk, CoefSample.value, CoefSample.draw, ofCoef, SVal.get]
    · simp [Form, CoefSample.Tabular] at hf
  · have hk : k ∈ r := by rw [h]; rfl
    cases tab
    · simp [Form, CoefSample.Plain] at hf
    · have : ∀ l : List (Fin F), (l.map fun j => List.ofFn (f j)).mapM (SVal.entry i) = .ok (l.map fun j => f j i) := by
        intro l
        induction l with
        | nil => rfl
        | cons a l ih => rw [List.map_cons, List.mapM_cons, ih]; simp [SVal.entry]; rfl
      simp only [pickAs, pickColumn, hk, CoefSample.value, CoefSample.draw, ofCoef, if_true, SVal.column]
      have h2 := this (List.finRange F)
      rw [← List.ofFn_eq_map, ← List.ofFn_eq_map] at h2
      rw [h2]

theorem pickAs_coefOpt (tab : Bool) (r : List String) (i : Fin N) (k : String) (s : Option (CoefSample N F))
    (hf : ∀ c, s = some c → Form tab c) (h : k ∈ r ↔ coefRandom s = true) :
    pickAs tab r i (k, coefOpt s) = .ok (.val (ofCoef? (s.map (·.draw i)))) := by
  rcases s with _ | s
  · have hk : k ∉ r := by rw [h]; simp [coefRandom]
    cases tab <;> simp [pickAs, pick, pickColumn, hk, coefOpt, ofCoef?]
  · exact pickAs_coef tab r i k s (hf s rfl) h

theorem pickAs_val (tab : Bool) (r : List String) (i : ℕ) (k : String) (v : Val) (h : k ∉ r) :
    pickAs tab r i (k, .val v) = .ok (.val v) := by cases tab <;> simp [pickAs, pick, pickColumn, h]

/-- A random coefficient has `N` samples. -/
def HasLen (N : ℕ) (tab : Bool) (v : SVal) : Prop :=
  if tab then v.firstLen = .ok N else v.len = .ok N ∧ v.firstLen = .error .typeError

theorem hasLen_value (tab : Bool) (s : CoefSample N F) (hN : if tab then 0 < F else 0 < N) (hf : Form tab s)
    (h : s.isRandom = true) : HasLen N tab s.value := by
  rcases s with c | f | f
  · simp [CoefSample.isRandom] at h
  · cases tab
    · simp only [Bool.false_eq_true, if_false] at hN
      obtain ⟨M, rfl⟩ := Nat.exists_eq_succ_of_ne_zero hN.ne'
      simp [HasLen, CoefSample.value, SVal.len, SVal.firstLen, List.ofFn_succ]
    · simp [Form, CoefSample.Tabular] at hf
  · cases tab
    · simp [Form, CoefSample.Plain] at hf
    · simp only [if_true] at hN
      obtain ⟨M, rfl⟩ := Nat.exists_eq_succ_of_ne_zero hN.ne'
      simp [HasLen, CoefSample.value, SVal.firstLen, List.ofFn_succ]

theorem newBrgArgs_ok (tab : Bool) (r : List String) (d : Attrs) (row : Fin N → List SVal) (hne : r ≠ [])
    (hlen : ∀ k ∈ r, ∃ v, d.get? k = some v ∧ HasLen N tab v)
    (hrow : ∀ i : Fin N, d.mapM (pickAs tab r i) = .ok (row i)) :
    newBrgArgs r d = .ok ((List.finRange N).map row) := by
  cases tab with
  | false =>
    have h1 : newColumns r d = .error .typeError := by
      cases r with
      | nil => exact absurd rfl hne
      | cons k t =>
        obtain ⟨v, hv, -, hl⟩ := hlen k (by simp)
        simp only [newColumns, hv, hl]
    rw [newBrgArgs, h1]
    refine newArgs_ok r d row hne ?_ hrow
    intro k hk
    obtain ⟨v, hv, hl, -⟩ := hlen k hk
    exact ⟨v, hv, hl⟩
  | true =>
    have h1 : newColumns r d = .ok ((List.finRange N).map row) := by
      cases r with
      | nil => exact absurd rfl hne
      | cons k t =>
        obtain ⟨v, hv, hl⟩ := hlen k (by simp)
        have hl : v.firstLen = .ok N := hl
        simp only [newColumns, hv, hl]
        rw [← List.map_coe_finRange_eq_range, List.mapM_map]
        have : ∀ l : List (Fin N), l.mapM ((fun (i : ℕ) => d.mapM (pickColumn (k :: t) i)) ∘
            fun (x : Fin N) => (x : ℕ)) = .ok (l.map row) := by
          intro l
          induction l with
          | nil => rfl
          | cons a l ih => rw [List.mapM_cons, ih]; simp only [Function.comp]; erw [hrow]; rfl
        exact this _
    rw [newBrgArgs, h1]

theorem req_coef (t : Table) (k : String) (c : Coef) (h : t.get? k = some (ofCoef c)) : req asCoef t k = .ok c := by
  cases c <;> simp [req, h, ofCoef, asCoef]

theorem dflt_coef (t : Table) (k : String) (c d : Coef) (h : t.get? k = some (ofCoef c)) :
    dflt asCoef t k d = .ok c := by
  cases c <;> simp [dflt, h, ofCoef, asCoef]

theorem opt_coef (t : Table) (k : String) (c : Option Coef) (h : t.get? k = some (ofCoef? c)) :
    opt asCoef t k = .ok c := by
  rcases c with _ | c
  · simp [opt, h, ofCoef?]
  · cases c <;> simp [opt, h, ofCoef?, ofCoef, asCoef] <;> rfl

/-- The row of arguments that `random_var` makes for a bearing. -/
theorem brgArgs_row (n : ℕ) (kxx cxx : Coef) (mxx kyy : Option Coef) (kxy kyx : Coef) (cyy : Option Coef)
    (cxy cyx : Coef) (myy : Option Coef) (mxy myx : Coef) (frequency : Option (List ℝ)) (tag : Option String)
    (n_link : Option ℕ) (scale_factor : ℝ) (colour : String) :
    brgArgs (brgParams.zip [.int n, ofCoef kxx, ofCoef cxx, ofCoef? mxx, ofCoef? kyy, ofCoef kxy, ofCoef kyx,
      ofCoef? cyy, ofCoef cxy, ofCoef cyx, ofCoef? myy, ofCoef mxy, ofCoef myx, .ofArr? frequency, .ofStr? tag,
      .ofInt? n_link, .num scale_factor]) colour =
    .ok ⟨n, kxx, cxx, mxx, kyy, kxy, kyx, cyy, cxy, cyx, myy, mxy, myx, frequency, tag, n_link, scale_factor,
      colour⟩ := by
  unfold brgArgs
  rw [req_coef _ "kxx" kxx rfl, req_coef _ "cxx" cxx rfl, opt_coef _ "mxx" mxx rfl, opt_coef _ "kyy" kyy rfl,
    dflt_coef _ "kxy" kxy _ rfl, dflt_coef _ "kyx" kyx _ rfl, opt_coef _ "cyy" cyy rfl,
    dflt_coef _ "cxy" cxy _ rfl, dflt_coef _ "cyx" cyx _ rfl, opt_coef _ "myy" myy rfl,
    dflt_coef _ "mxy" mxy _ rfl, dflt_coef _ "myx" myx _ rfl]
  rcases frequency with _ | f <;> rcases tag with _ | t <;> rcases n_link with _ | l <;> rfl

/-! ### Arithmetic of samples -/

/-- An operation in each sample. -/
def map2 (f : ℝ → ℝ → ℝ) : Sample N ℝ → Sample N ℝ → Sample N ℝ
  | .fixed x, .fixed y => .fixed (f x y)
  | .fixed x, .random g => .random fun i => f x (g i)
  | .random g, .fixed y => .random fun i => f (g i) y
  | .random g, .random h => .random fun i => f (g i) (h i)

theorem draw_map2 (f : ℝ → ℝ → ℝ) (s t : Sample N ℝ) (i : Fin N) :
    (map2 f s t).draw i = f (s.draw i) (t.draw i) := by
  cases s <;> cases t <;> rfl

theorem isRandom_map2 (f : ℝ → ℝ → ℝ) (s t : Sample N ℝ) :
    (map2 f s t).isRandom = (s.isRandom || t.isRandom) := by
  cases s <;> cases t <;> rfl

theorem broadcast_num (f : ℝ → ℝ → ℝ) (s t : Sample N ℝ) : broadcast f s.num t.num = .ok (map2 f s t).num := by
  cases s <;> cases t <;> simp [broadcast, Sample.num, map2, List.map_ofFn, Function.comp_def]
  apply List.ext_getElem
  · simp
  · intro i h1 h2; simp

theorem broadcast_left (f : ℝ → ℝ → ℝ) (x : ℝ) (t : Sample N ℝ) :
    broadcast f (.val (.num x)) t.num = .ok (map2 f (.fixed x) t).num := broadcast_num f (.fixed x) t

theorem fullCheck_num (r : List String) (k : String) (s : Sample N ℝ) (h : k ∈ r ↔ s.isRandom = true) :
    fullCheck N r (k, s.num) = .ok () := by
  cases s with
  | fixed a => simp [fullCheck, Sample.num]
  | random f => have : k ∈ r := h.2 rfl; simp [fullCheck, this]

theorem fullCheck_mat (r : List String) (k : String) (s : Sample N Material) (h : k ∈ r ↔ s.isRandom = true) :
    fullCheck N r (k, s.mat) = .ok () := by
  cases s with
  | fixed a => simp [fullCheck, Sample.mat]
  | random f => have : k ∈ r := h.2 rfl; simp [fullCheck, this]

/-! ### Dictionaries -/

theorem mem_keys_iff {α : Type} (d : Dict String α) (k : String) : k ∈ d.keys ↔ ∃ v, d.get? k = some v := by
  induction d with
  | nil => simp [Dict.keys, Dict.get?]
  | cons x d ih =>
    obtain ⟨k', v⟩ := x
    simp only [Dict.keys, List.map_cons, List.mem_cons, Dict.get?] at ih ⊢
    by_cases h : k' = k
    · simp [h]
    · simp [h, Ne.symm h, ih]

theorem get?_set {α : Type} (d : Dict String α) (k k' : String) (v : α) :
    (d.set k v).get? k' = if k = k' then some v else d.get? k' := by
  induction d with
  | nil => simp [Dict.set, Dict.get?]
  | cons x d ih =>
    obtain ⟨a, b⟩ := x
    by_cases h : a = k
    · subst h
      by_cases h2 : a = k' <;> simp [Dict.set, Dict.get?, h2]
    · by_cases h2 : a = k'
      · subst h2; simp [Dict.set, Dict.get?, h, Ne.symm h]
      · simp only [Dict.set, h, if_false, Dict.get?, h2, ih]

theorem keys_set {α : Type} (d : Dict String α) (k : String) (v : α) (h : k ∈ d.keys) :
    (d.set k v).keys = d.keys := by
  induction d with
  | nil => simp [Dict.keys] at h
  | cons x d ih =>
    obtain ⟨a, b⟩ := x
    by_cases ha : a = k
    · simp [Dict.set, Dict.keys, ha]
    · have : k ∈ Dict.keys d := by
        simp only [Dict.keys, List.map_cons, List.mem_cons] at h ⊢
        exact h.resolve_left (Ne.symm ha)
      have := ih this
      simp only [Dict.keys] at this
      simp [Dict.set, Dict.keys, ha, this]

theorem mem_of_get? {α : Type} (d : Dict String α) (k : String) (v : α) (h : d.get? k = some v) : (k, v) ∈ d := by
  induction d with
  | nil => simp [Dict.get?] at h
  | cons x d ih =>
    obtain ⟨a, b⟩ := x
    simp only [Dict.get?] at h
    split at h
    · rename_i ha; cases h; simp [ha]
    · exact List.mem_cons_of_mem _ (ih h)

end Ross.StochasticLemmas
