import Verif.Model.Equality
import Verif.Lemmas.Persist

/-! # Lemmas on comparing tables of attributes -/

namespace Ross.EqualityLemmas

open Equality Persist PersistLemmas BearingLemmas Spec

theorem npClose_self (x : ℝ) : npClose x x = true := by
  unfold npClose
  rw [decide_eq_true_iff, sub_self, abs_zero]
  positivity

theorem material_self (m : Material) : m.pyEq m = true := by
  simp [Material.pyEq, npClose_self]

theorem npEq_self (l : List ℝ) : npEq l l = .ok true := by simp [npEq]

theorem valEq_self {v : Val} (h : ∀ t, v ≠ .tab t) : valEq v v = .ok true := by
  cases v <;> simp_all [valEq, npEq_self, material_self]

theorem npEq_true {a b : List ℝ} (h : npEq a b = .ok true) (hl : a.length = b.length) : a = b := by
  simpa [npEq, hl] using h

/-! ### The arguments of the constructor and the attributes -/

theorem attrEq_true {s t : Table} {p : String} (h : attrEq s t p = .ok true) :
    ∃ v w, s.get? p = some v ∧ t.get? p = some w ∧ valEq v w = .ok true := by
  unfold attrEq getattr at h
  cases hv : s.get? p with
  | none => simp [hv, bind, Except.bind] at h
  | some v =>
    cases hw : t.get? p with
    | none => simp [hv, hw, bind, Except.bind] at h
    | some w =>
      simp only [hv, hw, bind, Except.bind] at h
      exact ⟨v, w, rfl, rfl, h⟩

theorem attrEq_of {s t : Table} {p : String} {v w : Val} {c : Bool} (hv : s.get? p = some v)
    (hw : t.get? p = some w) (h : valEq v w = .ok c) : attrEq s t p = .ok c := by
  simp [attrEq, getattr, hv, hw, h, bind, Except.bind]

theorem argsEq_aux (params : List String) (s t : Table) (acc : Bool)
    (h : params.foldlM (argStep s t) acc = (.ok true : Res Bool)) :
    acc = true ∧ ∀ p ∈ params, attrEq s t p = .ok true := by
  induction params generalizing acc with
  | nil => simpa [pure, Except.pure] using h
  | cons p l ih =>
    rw [List.foldlM_cons] at h
    cases hc : attrEq s t p with
    | error e => simp [argStep, hc, bind, Except.bind] at h
    | ok c =>
      simp only [argStep, hc, bind, Except.bind, pure, Except.pure] at h
      obtain ⟨h1, h2⟩ := ih (acc && c) h
      rw [Bool.and_eq_true] at h1
      refine ⟨h1.1, ?_⟩
      intro q hq
      rcases List.mem_cons.1 hq with rfl | hq
      · rw [hc, h1.2]
      · exact h2 q hq

theorem argsEq_true {params : List String} {s t : Table} (h : argsEq params s t = .ok true) :
    ∀ p ∈ params, ∃ v w, s.get? p = some v ∧ t.get? p = some w ∧ valEq v w = .ok true :=
  fun p hp => attrEq_true ((argsEq_aux params s t true h).2 p hp)

theorem argsEq_of {params : List String} {s t : Table}
    (h : ∀ p ∈ params, attrEq s t p = .ok true) : argsEq params s t = .ok true := by
  unfold argsEq
  induction params with
  | nil => rfl
  | cons p l ih =>
    rw [List.foldlM_cons]
    simp only [argStep, h p (by simp), bind, Except.bind, pure, Except.pure, Bool.and_true]
    exact ih fun q hq => h q (List.mem_cons_of_mem _ hq)

theorem attrsEq_of {names : List String} {s t : Table}
    (h : ∀ p ∈ names, attrEq s t p = .ok true) : attrsEq names s t = .ok true := by
  unfold attrsEq
  induction names with
  | nil => rfl
  | cons p l ih =>
    rw [List.foldlM_cons]
    simp only [attrStep, h p (by simp), bind, Except.bind, if_true]
    exact ih fun q hq => h q (List.mem_cons_of_mem _ hq)

theorem bearingEq_true {params names : List String} {s t : Table}
    (h : bearingEq params names s t = .ok true) : argsEq params s t = .ok true := by
  unfold bearingEq at h
  cases h1 : argsEq params s t with
  | error e => simp [h1, bind, Except.bind] at h
  | ok a =>
    cases h2 : attrsEq names s t with
    | error e => simp [h1, h2, bind, Except.bind] at h
    | ok b =>
      simp [h1, h2, bind, Except.bind, pure, Except.pure] at h
      rw [h.1]

theorem bearingEq_of {params names : List String} {s t : Table}
    (h : ∀ p ∈ params ++ names, attrEq s t p = .ok true) :
    bearingEq params names s t = .ok true := by
  unfold bearingEq
  rw [argsEq_of fun p hp => h p (List.mem_append_left _ hp),
    attrsEq_of fun p hp => h p (List.mem_append_right _ hp)]
  rfl

theorem bearingEq_error {params names : List String} {s t : Table} {e : PyErr}
    (h : argsEq params s t = .error e) : bearingEq params names s t = .error e := by
  unfold bearingEq
  rw [h]
  rfl

/-! ### Dictionaries -/

theorem dictEq_aux (s t : Table) (acc : Bool) (h : s.foldlM (dictStep t) acc = (.ok true : Res Bool)) :
    acc = true ∧ ∀ kv ∈ s, ∃ w, t.get? kv.1 = some w ∧ valEq kv.2 w = .ok true := by
  induction s generalizing acc with
  | nil => simpa [pure, Except.pure] using h
  | cons kv l ih =>
    rw [List.foldlM_cons] at h
    cases acc with
    | false =>
      simp only [dictStep, bind, Except.bind] at h
      exact absurd (ih false (by simpa using h)).1 (by simp)
    | true =>
      cases hw : t.get? kv.1 with
      | none =>
        simp only [dictStep, hw, bind, Except.bind] at h
        exact absurd (ih false (by simpa using h)).1 (by simp)
      | some w =>
        cases hc : valEq kv.2 w with
        | error e => simp [dictStep, hw, hc, bind, Except.bind] at h
        | ok c =>
          simp only [dictStep, hw, hc, bind, Except.bind, if_true] at h
          obtain ⟨h1, h2⟩ := ih c (by simpa using h)
          refine ⟨rfl, ?_⟩
          intro q hq
          rcases List.mem_cons.1 hq with rfl | hq
          · exact ⟨w, hw, by rw [hc, h1]⟩
          · exact h2 q hq

theorem dictEq_true {s t : Table} (h : dictEq s t = .ok true) :
    s.length = t.length ∧ ∀ kv ∈ s, ∃ w, t.get? kv.1 = some w ∧ valEq kv.2 w = .ok true := by
  unfold dictEq at h
  split_ifs at h with hl
  · exact ⟨hl, (dictEq_aux s t true h).2⟩
  · simp at h

theorem dictEq_of {s t : Table} (hl : s.length = t.length)
    (h : ∀ kv ∈ s, ∃ w, t.get? kv.1 = some w ∧ valEq kv.2 w = .ok true) : dictEq s t = .ok true := by
  unfold dictEq
  rw [if_pos hl]
  clear hl
  induction s with
  | nil => rfl
  | cons kv l ih =>
    rw [List.foldlM_cons]
    obtain ⟨w, hw, hc⟩ := h kv (by simp)
    simp only [dictStep, hw, hc, bind, Except.bind, if_true]
    exact ih fun q hq => h q (List.mem_cons_of_mem _ hq)

theorem get_of_mem {t : Table} (hn : t.keys.Nodup) {k : String} {v : Val} (h : (k, v) ∈ t) :
    t.get? k = some v := by
  induction t with
  | nil => simp at h
  | cons a l ih =>
    obtain ⟨x, w⟩ := a
    simp only [Dict.keys, List.map_cons, List.nodup_cons] at hn
    rcases List.mem_cons.1 h with h | h
    · cases h
      simp [Dict.get?]
    · have hx : x ≠ k := by
        rintro rfl
        exact hn.1 (List.mem_map.2 ⟨_, h, rfl⟩)
      rw [Dict.get?, if_neg hx]
      exact ih hn.2 h

theorem dict_self {t : Table} (hn : t.keys.Nodup) (ht : ∀ kv ∈ t, ∀ u, kv.2 ≠ .tab u) :
    dictEq t t = .ok true :=
  dictEq_of rfl fun kv hkv => ⟨kv.2, get_of_mem hn hkv, valEq_self (ht kv hkv)⟩

/-! ### Bearings -/

theorem values_pos {sp : Scipy} {f : Option (List ℝ)} {c : Coef} {x : Coeff}
    (h : Coeff.process sp f c = .ok x) : x.values ≠ [] := by
  have h := process_again h
  intro e
  rw [e] at h
  simp [Coeff.process, Coeff.interpolate] at h

theorem nodup_const {l : List ℝ} {w : ℝ} (hd : l.Nodup) (hne : l ≠ []) (h : ∀ y ∈ l, w = y) :
    l = [w] := by
  match l, hne with
  | [y], _ => rw [h y (by simp)]
  | y :: z :: l, _ =>
    have h1 := h y (by simp)
    have h2 := h z (by simp)
    exact absurd (List.nodup_cons.1 hd).1 (by rw [← h1, ← h2]; simp)

theorem npEq_nodup {a b : List ℝ} (ha : a.Nodup) (hb : b.Nodup) (ha' : a ≠ []) (hb' : b ≠ [])
    (h : npEq a b = .ok true) : a = b := by
  unfold npEq at h
  split_ifs at h with h1 h2 h3
  · simpa using h
  · obtain ⟨x, rfl⟩ := List.length_eq_one_iff.1 h2
    simp only [Except.ok.injEq, List.all_eq_true, decide_eq_true_iff, List.head?_cons,
      Option.some.injEq] at h
    exact (nodup_const hb hb' h).symm
  · obtain ⟨x, rfl⟩ := List.length_eq_one_iff.1 h3
    simp only [Except.ok.injEq, List.all_eq_true, decide_eq_true_iff, List.head?_cons,
      Option.some.injEq] at h
    exact nodup_const ha ha' h

theorem valEq_freq {f f' : Option (List ℝ)} (hd : Distinct f) (hd' : Distinct f')
    (hn : reqLen f ≠ 0) (hn' : reqLen f' ≠ 0) (h : valEq (.ofArr? f) (.ofArr? f') = .ok true) :
    f = f' := by
  cases f with
  | none =>
    cases f' with
    | none => rfl
    | some g => simp [valEq, Val.ofArr?] at h
  | some g =>
    cases f' with
    | none => simp [valEq, Val.ofArr?] at h
    | some g' =>
      rw [npEq_nodup hd hd' (by rintro rfl; exact hn rfl) (by rintro rfl; exact hn' rfl) h]

theorem valEq_int? {n n' : Option ℕ} (h : valEq (.ofInt? n) (.ofInt? n') = .ok true) : n = n' := by
  cases n <;> cases n' <;> simp_all [valEq, Val.ofInt?]

theorem valEq_str? {n n' : Option String} (h : valEq (.ofStr? n) (.ofStr? n') = .ok true) : n = n' := by
  cases n <;> cases n' <;> simp_all [valEq, Val.ofStr?]

theorem valEq_num? {n n' : Option ℝ} (h : valEq (.ofNum? n) (.ofNum? n') = .ok true) : n = n' := by
  cases n <;> cases n' <;> simp_all [valEq, Val.ofNum?]

theorem valEq_num {x y : ℝ} (h : valEq (.num x) (.num y) = .ok true) : x = y := by simpa [valEq] using h

theorem valEq_int {x y : ℕ} (h : valEq (.int x) (.int y) = .ok true) : x = y := by simpa [valEq] using h

theorem valEq_str {x y : String} (h : valEq (.str x) (.str y) = .ok true) : x = y := by simpa [valEq] using h

theorem valEq_bool {x y : Bool} (h : valEq (.bool x) (.bool y) = .ok true) : x = y := by
  simpa [valEq] using h

theorem init_lengths {sp : Scipy} {a : BearingArgs} {b : BearingElement}
    (h : BearingElement.init sp a = .ok b) :
    reqLen b.frequency ≠ 0 ∧ ∀ c ∈ [b.kxx, b.kyy, b.kxy, b.kyx, b.cxx, b.cyy, b.cxy, b.cyx, b.mxx,
      b.myy, b.mxy, b.myx], c.values.length = reqLen b.frequency := by
  obtain ⟨-, -, hf, -, -, -, hc⟩ := init_ok h
  simp only [List.mem_cons, List.not_mem_nil, or_false, forall_eq_or_imp, forall_eq] at hc ⊢
  obtain ⟨⟨h1, l1⟩, ⟨h2, l2⟩, ⟨h3, l3⟩, ⟨h4, l4⟩, ⟨h5, l5⟩, ⟨h6, l6⟩, ⟨h7, l7⟩, ⟨h8, l8⟩, ⟨h9, l9⟩,
    ⟨h10, l10⟩, ⟨h11, l11⟩, ⟨h12, l12⟩⟩ := hc
  rw [hf]
  refine ⟨?_, l1, l2, l3, l4, l5, l6, l7, l8, l9, l10, l11, l12⟩
  rw [← l1]
  exact fun h0 => values_pos h1 (List.length_eq_zero_iff.1 h0)

/-- Two bearings with attributes that compare equal are equal. -/
theorem brg_same {sp : Scipy} {a a' : BearingArgs} {b b' : BearingElement}
    (h : BearingElement.init sp a = .ok b) (h' : BearingElement.init sp a' = .ok b')
    (hd : Distinct b.frequency) (hd' : Distinct b'.frequency)
    (H : ∀ p ∈ brgParams, ∃ v w, (brgAttrs b).get? p = some v ∧ (brgAttrs b').get? p = some w ∧
      valEq v w = .ok true) : b = b' := by
  have key : ∀ p v w, p ∈ brgParams → (brgAttrs b).get? p = some v → (brgAttrs b').get? p = some w →
      valEq v w = .ok true := by
    intro p v w hp hv hw
    obtain ⟨v', w', hv', hw', hc⟩ := H p hp
    rw [hv] at hv'
    rw [hw] at hw'
    cases hv'
    cases hw'
    exact hc
  obtain ⟨hn, hl⟩ := init_lengths h
  obtain ⟨hn', hl'⟩ := init_lengths h'
  have hf := valEq_freq hd hd' hn hn' (key "frequency" _ _ (by decide) rfl rfl)
  rw [← hf] at hl'
  have val : ∀ (c c' : Coeff) p, c.values.length = reqLen b.frequency →
      c'.values.length = reqLen b.frequency → p ∈ brgParams →
      (brgAttrs b).get? p = some (.arr c.values) → (brgAttrs b').get? p = some (.arr c'.values) →
      c.values = c'.values := fun c c' p h1 h2 hp hv hw =>
    npEq_true (key p _ _ hp hv hw) (h1.trans h2.symm)
  simp only [List.mem_cons, List.not_mem_nil, or_false, forall_eq_or_imp, forall_eq] at hl hl'
  obtain ⟨l1, l2, l3, l4, l5, l6, l7, l8, l9, l10, l11, l12⟩ := hl
  obtain ⟨m1, m2, m3, m4, m5, m6, m7, m8, m9, m10, m11, m12⟩ := hl'
  have e : argsOf b = argsOf b' := by
    unfold argsOf
    rw [hf, val _ _ "kxx" l1 m1 (by decide) rfl rfl, val _ _ "kyy" l2 m2 (by decide) rfl rfl,
      val _ _ "kxy" l3 m3 (by decide) rfl rfl, val _ _ "kyx" l4 m4 (by decide) rfl rfl,
      val _ _ "cxx" l5 m5 (by decide) rfl rfl, val _ _ "cyy" l6 m6 (by decide) rfl rfl,
      val _ _ "cxy" l7 m7 (by decide) rfl rfl, val _ _ "cyx" l8 m8 (by decide) rfl rfl,
      val _ _ "mxx" l9 m9 (by decide) rfl rfl, val _ _ "myy" l10 m10 (by decide) rfl rfl,
      val _ _ "mxy" l11 m11 (by decide) rfl rfl, val _ _ "myx" l12 m12 (by decide) rfl rfl,
      valEq_int (key "n" _ _ (by decide) rfl rfl), valEq_int? (key "n_link" _ _ (by decide) rfl rfl),
      valEq_str? (key "tag" _ _ (by decide) rfl rfl), valEq_str (key "color" _ _ (by decide) rfl rfl),
      valEq_num (key "scale_factor" _ _ (by decide) rfl rfl)]
  have g := brg_again h b.tag b.scale_factor
  have g' := brg_again h' b'.tag b'.scale_factor
  have t1 : ({ argsOf b with tag := b.tag, scale_factor := b.scale_factor } : BearingArgs) =
      { argsOf b' with tag := b'.tag, scale_factor := b'.scale_factor } := by
    rw [e, valEq_str? (key "tag" _ _ (by decide) rfl rfl),
      valEq_num (key "scale_factor" _ _ (by decide) rfl rfl)]
  rw [t1, g'] at g
  exact (Except.ok.inj g).symm

end Ross.EqualityLemmas
