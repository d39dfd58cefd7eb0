import Verif.Model.FigureData
import Verif.Lemmas.DictLemmas
import Verif.Props.RespPlots

/-! # C124: the table made of a figure -/

namespace Ross.FigureDataLemmas

open Ross Ross.Stochastic Ross.FigureData

theorem set_append_mid {α : Type} (d₁ d₂ : Dict String α) (k : String) (v w : α) (h : k ∉ d₁.keys) :
    Dict.set (d₁ ++ (k, v) :: d₂) k w = d₁ ++ (k, w) :: d₂ := by
  induction d₁ with
  | nil => simp [Dict.set]
  | cons p t ih =>
    obtain ⟨k', v'⟩ := p
    have h1 : k' ≠ k := fun e => h (by rw [← e]; exact List.mem_cons_self)
    have h2 : k ∉ Dict.keys t := fun e => h (List.mem_cons_of_mem _ e)
    simp [Dict.set, h1, ih h2]

theorem set_append_new {α : Type} (d : Dict String α) (k : String) (w : α) (h : k ∉ d.keys) :
    Dict.set d k w = d ++ [(k, w)] := by
  induction d with
  | nil => rfl
  | cons p t ih =>
    obtain ⟨k', v'⟩ := p
    have h1 : k' ≠ k := fun e => h (by rw [← e]; exact List.mem_cons_self)
    have h2 : k ∉ Dict.keys t := fun e => h (List.mem_cons_of_mem _ e)
    simp [Dict.set, h1, ih h2]

theorem empty_eq (l : List (String × Curve)) (d : Dict String (Dict String (List ℝ)))
    (hn : (l.map Prod.fst).Nodup) (hd : ∀ t ∈ l, t.1 ∉ d.keys) :
    l.foldl (fun d t => Dict.set d t.1 []) d = d ++ l.map fun t => (t.1, []) := by
  induction l generalizing d with
  | nil => simp
  | cons t l ih =>
    rw [List.map_cons, List.nodup_cons] at hn
    rw [List.foldl_cons, set_append_new d t.1 [] (hd t List.mem_cons_self), ih _ hn.2]
    · simp
    · intro s hs hk
      simp only [Dict.keys, List.map_append, List.mem_append, List.map_cons, List.map_nil,
        List.mem_singleton] at hk
      rcases hk with hk | hk
      · exact hd s (List.mem_cons_of_mem _ hs) hk
      · exact hn.1 (hk ▸ List.mem_map.2 ⟨s, hs, rfl⟩)

theorem fill_eq {xl yl : String} (hl : xl ≠ yl) (l : List (String × Curve))
    (d : Dict String (Dict String (List ℝ))) (hn : (l.map Prod.fst).Nodup) (hd : ∀ t ∈ l, t.1 ∉ d.keys) :
    l.foldl (addTrace xl yl) (d ++ l.map fun t => (t.1, [])) =
      d ++ l.map fun t => (t.1, [(xl, t.2.x), (yl, t.2.y)]) := by
  induction l generalizing d with
  | nil => simp
  | cons t l ih =>
    rw [List.map_cons, List.nodup_cons] at hn
    have hk := hd t List.mem_cons_self
    have hg : Dict.get? (d ++ (t.1, ([] : Dict String (List ℝ))) :: l.map fun t => (t.1, [])) t.1 = some [] := by
      induction d with
      | nil => simp [Dict.get?]
      | cons p d' ihd =>
        obtain ⟨k', v'⟩ := p
        have h1 : k' ≠ t.1 := fun e => hk (by rw [← e]; exact List.mem_cons_self)
        have h2 : t.1 ∉ Dict.keys d' := fun e => hk (List.mem_cons_of_mem _ e)
        simp only [List.cons_append, Dict.get?, if_neg h1]
        exact ihd (fun s hs e => hd s hs (List.mem_cons_of_mem _ e)) h2
    rw [List.foldl_cons, List.map_cons]
    have hstep : addTrace xl yl (d ++ (t.1, []) :: l.map fun t => (t.1, [])) t =
        (d ++ [(t.1, [(xl, t.2.x), (yl, t.2.y)])]) ++ l.map fun t => (t.1, []) := by
      unfold addTrace
      rw [hg, set_append_mid d _ t.1 _ _ hk]
      simp [Dict.set, hl]
    rw [hstep, ih _ hn.2]
    · simp
    · intro s hs hk'
      simp only [Dict.keys, List.map_append, List.mem_append, List.map_cons, List.map_nil,
        List.mem_singleton] at hk'
      rcases hk' with hk' | hk'
      · exact hd s (List.mem_cons_of_mem _ hs) hk'
      · exact hn.1 (hk' ▸ List.mem_map.2 ⟨s, hs, rfl⟩)

/-- A column is empty, or has the two rows. -/
def Filled (xl yl : String) (c : Dict String (List ℝ)) : Prop := c = [] ∨ ∃ a b, c = [(xl, a), (yl, b)]

theorem set_filled {xl yl : String} (hl : xl ≠ yl) {c : Dict String (List ℝ)} (hc : Filled xl yl c) (a b : List ℝ) :
    Dict.set (Dict.set c xl a) yl b = [(xl, a), (yl, b)] := by
  rcases hc with rfl | ⟨a', b', rfl⟩ <;> simp [Dict.set, hl]

theorem fill_get {xl yl : String} (hl : xl ≠ yl) (l : List (String × Curve)) (d : Dict String (Dict String (List ℝ)))
    (hd : ∀ k c, Dict.get? d k = some c → Filled xl yl c) (k : String) :
    Dict.get? (l.foldl (addTrace xl yl) d) k =
      match (l.filter fun t => t.1 = k).getLast? with
      | some t => some [(xl, t.2.x), (yl, t.2.y)]
      | none => Dict.get? d k := by
  induction l generalizing d with
  | nil => rfl
  | cons t l ih =>
    have hf : Filled xl yl ((Dict.get? d t.1).getD []) := by
      cases h : Dict.get? d t.1 with
      | none => exact Or.inl rfl
      | some c => exact hd _ _ h
    have hs : addTrace xl yl d t = Dict.set d t.1 [(xl, t.2.x), (yl, t.2.y)] := by
      unfold addTrace
      rw [set_filled hl hf]
    rw [List.foldl_cons, hs, ih]
    · by_cases hk : t.1 = k
      · rw [List.filter_cons_of_pos (by simpa using hk)]
        cases hg : (l.filter fun t => t.1 = k).getLast? with
        | none =>
          rw [List.getLast?_eq_none_iff] at hg
          simp [hg, Dict.get?_set, hk]
        | some s => simp [List.getLast?_cons, hg]
      · rw [List.filter_cons_of_neg (by simpa using hk)]
        cases hg : (l.filter fun t => t.1 = k).getLast? with
        | none => simp [Dict.get?_set, hk]
        | some s => rfl
    · intro k' c hc
      rw [Dict.get?_set] at hc
      split_ifs at hc
      · exact Or.inr ⟨_, _, (Option.some.inj hc).symm⟩
      · exact hd _ _ hc

theorem empty_get (l : List (String × Curve)) (d : Dict String (Dict String (List ℝ)))
    (hd : ∀ k c, Dict.get? d k = some c → c = []) (k : String) (c : Dict String (List ℝ))
    (h : Dict.get? (l.foldl (fun d t => Dict.set d t.1 []) d) k = some c) :
    c = [] ∧ ((Dict.get? d k).isSome ∨ ∃ t ∈ l, t.1 = k) := by
  induction l generalizing d with
  | nil => exact ⟨hd _ _ h, Or.inl (by rw [show Dict.get? d k = some c from h]; rfl)⟩
  | cons t l ih =>
    rw [List.foldl_cons] at h
    obtain ⟨h1, h2⟩ := ih (Dict.set d t.1 []) (fun k' c' hc => by
      rw [Dict.get?_set] at hc
      split_ifs at hc
      · exact (Option.some.inj hc).symm
      · exact hd _ _ hc) h
    refine ⟨h1, ?_⟩
    rcases h2 with h2 | ⟨s, hs, h2⟩
    · rw [Dict.get?_set] at h2
      by_cases hk : t.1 = k
      · exact Or.inr ⟨t, List.mem_cons_self, hk⟩
      · rw [if_neg hk] at h2
        exact Or.inl h2
    · exact Or.inr ⟨s, List.mem_cons_of_mem _ hs, h2⟩

theorem title_ne {c c' : Char} (h : c ≠ c') (s t : List Char) : (c :: s) ≠ c' :: t := by
  intro e
  exact h (List.cons.inj e).1

theorem titles_ne (u v : String) : (magnitudeTitles u v).1 ≠ (magnitudeTitles u v).2 ∧
    (phaseTitles u v).1 ≠ (phaseTitles u v).2 ∧ (timeTitles u v).1 ≠ (timeTitles u v).2 := by
  refine ⟨fun e => ?_, fun e => ?_, fun e => ?_⟩
  all_goals
    have h := congrArg (fun s : String => s.toList.head?) e
    simp only [magnitudeTitles, phaseTitles, timeTitles, String.toList_append] at h
  · exact absurd (show some 'F' = some 'A' from h) (by decide)
  · exact absurd (show some 'F' = some 'P' from h) (by decide)
  · exact absurd (show some 'T' = some 'A' from h) (by decide)

end Ross.FigureDataLemmas

namespace Ross.Props

open Ross Ross.Spec Ross.Rotor Ross.RotorLemmas Ross.RespPlots Ross.Stochastic Ross.FigureData Ross.FigureDataLemmas

variable {pd : Pandas} {fuel : ℕ} {a : RotorArgs} {r : Rotor} {six : Bool} {N : ℕ}

/-- **C124** of a figure in which no two curves have the same name and the axes have different titles, the table has
one column for each curve, in their order, with the values of the curve under the titles of the axes. -/
theorem C124_columns (fig : List (String × Curve)) {xl yl : String} (hn : (fig.map Prod.fst).Nodup) (hl : xl ≠ yl) :
    getData fig xl yl = fig.map fun t => (t.1, [(xl, t.2.x), (yl, t.2.y)]) := by
  unfold getData emptyColumns
  rw [empty_eq fig [] hn (by simp [Dict.keys])]
  exact fill_eq hl fig [] hn (by simp [Dict.keys])

/-- **C124** of any figure, the column of a name has the values of the last curve with that name; there is no column
without a curve. -/
theorem C124_last (fig : List (String × Curve)) {xl yl : String} (hl : xl ≠ yl) (k : String) :
    Dict.get? (getData fig xl yl) k =
      ((fig.filter fun t => t.1 = k).getLast?).map fun t => [(xl, t.2.x), (yl, t.2.y)] := by
  unfold getData emptyColumns
  rw [fill_get hl]
  · cases hg : (fig.filter fun t => t.1 = k).getLast? with
    | some t => rfl
    | none =>
      simp only [Option.map_none]
      cases he : Dict.get? (fig.foldl (fun d t => Dict.set d t.1 []) []) k with
      | none => rfl
      | some c =>
        obtain ⟨-, h2⟩ := empty_get fig [] (by simp [Dict.get?]) k c he
        rcases h2 with h2 | ⟨t, ht, h2⟩
        · simp [Dict.get?] at h2
        · rw [List.getLast?_eq_none_iff] at hg
          have : t ∈ fig.filter fun t => t.1 = k := List.mem_filter.2 ⟨ht, decide_eq_true h2⟩
          rw [hg] at this
          cases this
  · intro k' c hc
    exact Or.inl (empty_get fig [] (by simp [Dict.get?]) k' c hc).1

/-- **C124** of the figures of a forced response whose probes have different names: the column of a probe has the
frequencies and the amplitudes, or the phases, that it measures. -/
theorem C124_forced (la : Lapack) (deg : ℝ → String) (hw : WellFormed six N a) (h : init pd fuel a = some (.ok r))
    {probe : List Probe} (hp : DistinctNames deg N probe) (hc : (radials probe).length ≤ 10) (ω : List ℝ)
    (uf ua up : ℝ) (fu au pu : String) (resp : List (ForcedResp r.ndof)) (kind : RespKind) :
    ∃ m p, plotMagnitude r la deg ω uf ua resp kind probe = .ok m ∧ plotPhase r la deg ω uf up resp kind probe = .ok p ∧
      getData m (magnitudeTitles fu au).1 (magnitudeTitles fu au).2 = (radials probe).map (fun q =>
        (nameOf deg q.1 q.2, [("Frequency (" ++ fu ++ ")", ω.map (uf * ·)),
          ("Amplitude (" ++ au ++ ")", resp.map fun x => ua * (measured la r N kind q.1 x).1)])) ∧
      getData p (phaseTitles fu pu).1 (phaseTitles fu pu).2 = (radials probe).map (fun q =>
        (nameOf deg q.1 q.2, [("Frequency (" ++ fu ++ ")", ω.map (uf * ·)),
          ("Phase (" ++ pu ++ ")", resp.map fun x => up * (measured la r N kind q.1 x).2)])) := by
  have hb := C118_bode_partial la deg hw h hp hc ω uf ua up resp kind
  unfold plotBode at hb
  obtain ⟨m, hm, hb⟩ := BearingLemmas.bind_ok.1 hb
  obtain ⟨p, hq, hb⟩ := BearingLemmas.bind_ok.1 hb
  obtain ⟨rfl, rfl⟩ := Prod.mk.inj (Except.ok.inj hb)
  have hn : ∀ f : Probe × ℕ → Curve, (((radials probe).map fun q => (nameOf deg q.1 q.2, f q)).map Prod.fst).Nodup := by
    intro f
    rw [List.map_map]
    exact hp.names
  refine ⟨_, _, hm, hq, ?_, ?_⟩
  · rw [C124_columns _ (hn _) (titles_ne fu au).1, List.map_map]
    rfl
  · rw [C124_columns _ (hn _) (titles_ne fu pu).2.1, List.map_map]
    rfl

/-- **C124 (partial)** of the figure of a time response in meters whose probes have different names: the column of a
probe has the instants and what it sees. -/
theorem C124_time_partial (deg : ℝ → String) (hs : SortsRows pd) (hw : WellFormed six N a)
    (h : init pd fuel a = some (.ok r)) {probe : List Probe} (hp : ∀ p ∈ probe, IsProbe p ∧ Readable a N p.node)
    (hn : ((shown r.number_dof probe).map fun q => nameOf deg q.1 q.2).Nodup)
    {t : List ℝ} (ht : t ≠ []) (yout : List (Fin r.ndof → ℝ)) (ut : ℝ) (tu du : String) :
    ∃ f, plot1d r deg t yout 1 ut probe = .ok f ∧
      getData f (timeTitles tu du).1 (timeTitles tu du).2 = (shown r.number_dof probe).map fun q =>
        (nameOf deg q.1 q.2, [("Time (" ++ tu ++ ")", t.map (ut * ·)),
          ("Amplitude (" ++ du ++ ")", yout.map (seen r.number_dof N q.1))]) := by
  refine ⟨_, C118_time_partial deg hs hw h hp ht yout ut, ?_⟩
  rw [C124_columns _ (by rw [List.map_map]; exact hn) (titles_ne tu du).2.2, List.map_map]
  rfl

/-- **C124 (negation)** two probes with the same tag have two curves in the figure of a time response, but one column,
that of the second probe. -/
theorem C124_tags_false (deg : ℝ → String) (hs : SortsRows pd) (hw : WellFormed six N a)
    (h : init pd fuel a = some (.ok r)) {p q : Probe} {θ φ : ℝ} {s : String} (hp : p.direction = "radial")
    (hq : q.direction = "radial") (hθ : p.angle = some θ) (hφ : q.angle = some φ) (hpn : Readable a N p.node)
    (hqn : Readable a N q.node) (hpt : p.tag = some s) (hqt : q.tag = some s) (hse : s ≠ "")
    {t : List ℝ} (ht : t ≠ []) (yout : List (Fin r.ndof → ℝ)) (ut : ℝ) (tu du : String) :
    ∃ f, plot1d r deg t yout 1 ut [p, q] = .ok f ∧ f.length = 2 ∧
      getData f (timeTitles tu du).1 (timeTitles tu du).2 =
        [(s, [("Time (" ++ tu ++ ")", t.map (ut * ·)),
          ("Amplitude (" ++ du ++ ")", yout.map (seen r.number_dof N q))])] := by
  have hpr : ∀ x ∈ [p, q], IsProbe x ∧ Readable a N x.node := by
    intro x hx
    simp only [List.mem_cons, List.not_mem_nil, or_false] at hx
    rcases hx with rfl | rfl
    · exact ⟨Or.inl ⟨hp, _, hθ⟩, hpn⟩
    · exact ⟨Or.inl ⟨hq, _, hφ⟩, hqn⟩
  have hsh : shown r.number_dof [p, q] = [(p, 0), (q, 1)] := by
    simp [shown, hp, hq]
  have n1 : nameOf deg p 0 = s := by simp [nameOf, hpt, hse, Option.filter]
  have n2 : nameOf deg q 1 = s := by simp [nameOf, hqt, hse, Option.filter]
  have hl := (titles_ne tu du).2.2
  refine ⟨_, C118_time_partial deg hs hw h hpr ht yout ut, by rw [hsh]; rfl, ?_⟩
  rw [hsh]
  simp only [List.map_cons, List.map_nil, n1, n2, getData, emptyColumns, List.foldl_cons, List.foldl_nil, addTrace,
    Dict.set, Dict.get?, if_true, Option.getD_some, if_neg hl]
  rfl

/-- Names that are different exist: the probes of the examples of C118. -/
example (deg : ℝ → String) : ((shown 4 [(⟨0, some 0, "radial", none⟩ : Probe), ⟨2, some 1, "radial", none⟩]).map
    fun q => nameOf deg q.1 q.2).Nodup := by
  have hsh : shown 4 [(⟨0, some 0, "radial", none⟩ : Probe), ⟨2, some 1, "radial", none⟩] =
      [(⟨0, some 0, "radial", none⟩, 0), (⟨2, some 1, "radial", none⟩, 1)] := by simp [shown]
  rw [hsh]
  simp only [List.map_cons, List.map_nil, List.nodup_cons, List.mem_singleton, List.not_mem_nil, not_false_eq_true,
    List.nodup_nil, and_true]
  intro e
  have := ((C118_labels deg _ _ _ _).1 (show getLabel deg _ 1 = getLabel deg _ 2 from e)).1
  omega

end Ross.Props
