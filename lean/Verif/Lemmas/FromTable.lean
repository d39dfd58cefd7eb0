import Verif.Props.Tables
import Verif.Spec.FromTable
import Verif.Lemmas.Runs
import Verif.Lemmas.RunsOne
import Verif.Lemmas.DictLemmas
import Verif.Lemmas.Bearing

/-! # Lemmas on elements read from tables -/

namespace Ross

namespace FromTableLemmas

open Spec Tables FromTable RunLemmas

/-- The lists that are read. -/
def keysOf (kind : Kind) : List String := mandatory kind ++ (leftOut kind).map Prod.fst

theorem reads_gives {kind : Kind} {sheet : Sheet} {hdr : List Cell} {rows : Sheet} {k : String} {dflt : Option PVal}
    {vs : List PVal} (hd : ∀ u, dflt = some u → (k, u) ∈ leftOut kind)
    (h : ReadsAs kind (Us sheet) (RpmSeen (keyWord kind) sheet) hdr rows k dflt vs) :
    vs.length = rows.length ∧ ∀ i v, vs[i]? = some v → TableGives kind sheet hdr rows k i v := by
  rcases h with ⟨j, hj, h⟩ | ⟨hj, u, hu, rfl, -⟩
  · refine ⟨h.length_eq.symm, fun i v hv => ?_⟩
    obtain ⟨hi, rfl⟩ := List.getElem?_eq_some_iff.1 hv
    have hi' : i < rows.length := h.length_eq ▸ hi
    exact ⟨rows[i], List.getElem?_eq_getElem hi', .inl ⟨j, hj, List.Forall₂.get h hi' hi⟩⟩
  · refine ⟨by simp, fun i v hv => ?_⟩
    obtain ⟨hi, rfl⟩ := List.getElem?_eq_some_iff.1 hv
    have hi' : i < rows.length := by simpa using hi
    refine ⟨rows[i], List.getElem?_eq_getElem hi', .inr ⟨hj, ?_⟩⟩
    simpa using hd u hu

theorem reads {sheet : Sheet} {kind : Kind} {n : ℕ} {d : Dict String TableParam} (h : readTable sheet kind n = .ok d) :
    ∃ hdr rows, IsTable kind sheet hdr rows ∧
      (∀ k ∈ keysOf kind, ∃ vs, listOf d k = .ok vs ∧ vs.length = rows.length ∧
        ∀ i v, vs[i]? = some v → TableGives kind sheet hdr rows k i v) ∧
      (kind = .bearing → d.get? "n" = some (.one n)) ∧
      d.keys = (if kind = .bearing then ["n"] else []) ++ mandatory kind ++
        (leftOut kind).map Prod.fst ++ if kind = .shaft true then ["matno", "rhoa", "ea", "ga", "color"] else [] := by
  obtain ⟨hdr, rows, h1, h2, h3, h4, h5⟩ := Props.C33_read_partial sheet kind n d h
  refine ⟨hdr, rows, h1, fun k hk => ?_, h4, h5⟩
  rcases List.mem_append.1 hk with hk | hk
  · obtain ⟨vs, e, hv⟩ := h2 k hk
    exact ⟨vs, by rw [listOf, e], reads_gives (by simp) hv⟩
  · obtain ⟨ku, hku, rfl⟩ := List.mem_map.1 hk
    obtain ⟨vs, e, hv⟩ := h3 ku hku
    refine ⟨vs, by rw [listOf, e], reads_gives (fun u hu => ?_) hv⟩
    cases hu
    exact hku

theorem entry_ok {d : Dict String TableParam} {k : String} {i : ℕ} {v : PVal} (h : entry d k i = .ok v) :
    ∃ l, listOf d k = .ok l ∧ l[i]? = some v := by
  obtain ⟨l, h1, h⟩ := bindOk h
  refine ⟨l, h1, ?_⟩
  cases e : l[i]? with
  | none => rw [e] at h; cases h
  | some w => rw [e] at h; cases h; rfl

theorem entry_eq {d : Dict String TableParam} {k : String} {i : ℕ} {v : PVal} {l : List PVal} (h : listOf d k = .ok l)
    (hv : l[i]? = some v) : entry d k i = .ok v := by
  unfold entry
  rw [h]
  show (match l[i]? with
    | some v => .ok v
    | none => .error .indexError : Res PVal) = _
  rw [hv]

theorem number_ok {v : PVal} {x : ℝ} (h : number v = .ok x) : v = .num x := by
  cases v <;> cases h
  rfl

theorem numberAt_ok {d : Dict String TableParam} {k : String} {i : ℕ} {x : ℝ} (h : numberAt d k i = .ok x) :
    entry d k i = .ok (.num x) := by
  obtain ⟨v, h1, h2⟩ := bindOk h
  rw [h1, number_ok h2]

theorem node_ok {v : PVal} {n : ℕ} (h : node v = .ok n) : v = .num n := by
  cases v with
  | num x =>
    simp only [node] at h
    split_ifs at h with hx
    cases h
    rw [hx]
  | _ => cases h

theorem truth_iff {v : PVal} : truth v = true ↔ ¬ Falsy v := by
  cases v <;> simp [truth, Falsy]

/-- A list that is read. -/
theorem gives_entry {sheet : Sheet} {kind : Kind} {hdr : List Cell} {rows : Sheet} {d : Dict String TableParam}
    (hk : ∀ k ∈ keysOf kind, ∃ vs, listOf d k = .ok vs ∧ vs.length = rows.length ∧
        ∀ i v, vs[i]? = some v → TableGives kind sheet hdr rows k i v) {k : String} (hm : k ∈ keysOf kind) {i : ℕ} {v : PVal}
    (h : entry d k i = .ok v) : TableGives kind sheet hdr rows k i v := by
  obtain ⟨vs, h1, -, h3⟩ := hk k hm
  obtain ⟨l, h4, h5⟩ := entry_ok h
  rw [h1] at h4
  cases h4
  exact h3 i v h5

/-! ### Materials -/

theorem fold_get {l : List (String × Material)} {s : String} {m : Material} :
    (l.foldl addMaterial []).get? s = some m →
      ∃ q : ℕ, l[q]? = some (s, m) ∧ ∀ q' > q, ∀ x : String × Material, l[q']? = some x → x.1 ≠ s := by
  induction l using List.reverseRecOn with
  | nil => intro h; cases h
  | append_singleton l a ih =>
    rw [List.foldl_append, List.foldl_cons, List.foldl_nil, addMaterial]
    intro h
    by_cases ha : a.1 = s
    · refine ⟨l.length, ?_, fun q' hq x hx => ?_⟩
      · rw [← ha, Dict.get?_set_self] at h
        cases h
        simp [← ha]
      · have := (List.getElem?_eq_some_iff.1 hx).1
        simp at this
        omega
    · rw [Dict.get?_set_ne _ _ ha] at h
      obtain ⟨q, h1, h2⟩ := ih h
      have hq := (List.getElem?_eq_some_iff.1 h1).1
      refine ⟨q, by rw [List.getElem?_append_left hq, h1], fun q' hq' x hx => ?_⟩
      by_cases hl : q' < l.length
      · rw [List.getElem?_append_left hl] at hx
        exact h2 q' hq' x hx
      · have := (List.getElem?_eq_some_iff.1 hx).1
        simp at this
        have : q' = l.length := by omega
        subst this
        simp at hx
        rw [← hx]
        exact ha

theorem toInt_int (z : ℤ) : toInt (.num z) = .ok z := by
  simp [toInt]

theorem material_init {name color : String} {rho e g : ℝ} {m : Material}
    (h : Material.init name rho (some e) (some g) none color = .ok m) :
    m.name = name ∧ m.rho = rho ∧ m.E = e ∧ m.G_s = g ∧ m.color = color ∧ m.G_s ≠ 0 ∧
      m.E = 2 * m.G_s * (1 + m.Poisson) := by
  unfold Material.init at h
  split_ifs at h with h1
  dsimp only at h
  obtain ⟨q, h2, h⟩ := bindOk h
  cases h
  unfold Material.pyDiv at h2
  split_ifs at h2 with h3
  cases h2
  have : g ≠ 0 := fun hg => h3 (by simp [hg])
  refine ⟨rfl, rfl, rfl, rfl, rfl, this, ?_⟩
  field_simp
  ring

/-! ### Lists for disks -/

theorem given_ok {α : Type} {l : Option (List α)} {dflt : α} {i : ℕ} {x : α} (h : given l dflt i = .ok x) :
    GivenOr l dflt i x := by
  cases l with
  | none =>
    cases h
    refine ⟨fun _ => rfl, fun ys hy => ?_⟩
    cases hy
  | some xs =>
    refine ⟨fun hn => (by cases hn), fun ys hy => ?_⟩
    cases hy
    simp only [given] at h
    cases e : xs[i]? with
    | none => rw [e] at h; cases h
    | some y => rw [e] at h; cases h; rfl

theorem given_total {α : Type} {l : Option (List α)} {dflt : α} {i : ℕ} (h : ∀ t, l = some t → i < t.length) :
    ∃ x, given l dflt i = .ok x := by
  cases l with
  | none => exact ⟨dflt, rfl⟩
  | some xs =>
    refine ⟨xs[i]'(h xs rfl), ?_⟩
    simp only [given]
    rw [List.getElem?_eq_getElem (h xs rfl)]

theorem picks_unique {hdr : List Cell} {names : List String} {j j' : ℕ} (h : Picks hdr names j) (h' : Picks hdr names j') :
    j = j' := by
  have a := TableLemmas.firstColumn_iff.2 h
  rw [TableLemmas.firstColumn_iff.2 h'] at a
  exact (Option.some.inj a).symm

theorem becomes_unique {kind : Kind} {us rpm : Prop} {k : String} {c : Cell} {v w : PVal} (h : Becomes kind us rpm k c v)
    (h' : Becomes kind us rpm k c w) : v = w := by
  unfold Becomes at h h'
  split_ifs at h h' with hk
  · obtain ⟨x, h1, h2⟩ := h
    obtain ⟨y, h3, h4⟩ := h'
    rw [h1] at h3
    cases h3
    rw [h2, h4]
  · cases c with
    | str s => exact h.1.trans h'.1.symm
    | _ => exact h.trans h'.symm

theorem gives_unique {kind : Kind} {sheet : Sheet} {hdr : List Cell} {rows : Sheet} {k : String} {i : ℕ} {v w : PVal}
    (hk : kind = .disk) (h : TableGives kind sheet hdr rows k i v) (h' : TableGives kind sheet hdr rows k i w) : v = w := by
  subst hk
  obtain ⟨r, h1, h2⟩ := h
  obtain ⟨r', h3, h4⟩ := h'
  rw [h1] at h3
  cases h3
  rcases h2 with ⟨j, a, b⟩ | ⟨-, b⟩
  · rcases h4 with ⟨j', a', b'⟩ | ⟨-, b'⟩
    · cases picks_unique a a'
      exact becomes_unique b b'
    · simp [leftOut] at b'
  · simp [leftOut] at b

theorem gives_reads {kind : Kind} {sheet : Sheet} {hdr : List Cell} {rows : Sheet} {k : String} (hne : rows ≠ [])
    (hk : ∀ u, (k, u) ∉ leftOut kind) (h : ∀ i < rows.length, ∃ v, TableGives kind sheet hdr rows k i v) :
    ∃ vs, ReadsAs kind (Us sheet) (RpmSeen (keyWord kind) sheet) hdr rows k none vs := by
  have hj : ∃ j, Picks hdr (namesOf kind k) j := by
    obtain ⟨v, r, -, ⟨j, a, -⟩ | ⟨-, b⟩⟩ := h 0 (List.length_pos_iff.2 hne)
    · exact ⟨j, a⟩
    · exact absurd b (hk _)
  obtain ⟨j, hj⟩ := hj
  have each : ∀ i : Fin rows.length, ∃ v, Becomes kind (Us sheet) (RpmSeen (keyWord kind) sheet) k
      (rows[i].getD j .blank) v := by
    intro i
    obtain ⟨v, r, hr, ⟨j', a, b⟩ | ⟨-, b⟩⟩ := h i i.2
    · cases picks_unique hj a
      rw [List.getElem?_eq_getElem i.2] at hr
      cases hr
      exact ⟨v, b⟩
    · exact absurd b (hk _)
  choose v hv using each
  refine ⟨List.ofFn v, .inl ⟨j, hj, ?_⟩⟩
  rw [List.forall₂_iff_get]
  refine ⟨by simp, fun i h1 h2 => ?_⟩
  simpa using hv ⟨i, h1⟩

end FromTableLemmas

end Ross
