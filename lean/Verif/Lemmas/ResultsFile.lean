import Verif.Spec.ResultsFile
import Verif.Lemmas.DictLemmas
import Verif.Lemmas.ListRes
import Verif.Lemmas.Rotor

/-!
# Lemmas on saving and loading results
-/

namespace Ross.ResultsFileLemmas

open ResultsFile Spec

variable {T : Texts} {sp : Scipy} {pd : Pandas} {fuel : ℕ} {fs : Files} {path : String}

/-- What is written of an entry. -/
def written (T : Texts) (p : String × Arg) : Option (String × FVal) :=
  match write T p.2 with
  | .ok (some v) => some (p.1, v)
  | _ => none

theorem writeTable_eq : ∀ {l : Dict String Arg}, (∀ p ∈ l, ∃ v, write T p.2 = .ok v) →
    writeTable T l = .ok (l.filterMap (written T))
  | [], _ => rfl
  | (k, a) :: t, h => by
    obtain ⟨v, hv⟩ := h (k, a) List.mem_cons_self
    have ih := writeTable_eq (l := t) fun p hp => h p (List.mem_cons_of_mem _ hp)
    cases v with
    | none => simp [writeTable, hv, ih, List.filterMap_cons, written, bind, Except.bind, pure, Except.pure]
    | some v => simp [writeTable, hv, ih, List.filterMap_cons, written, bind, Except.bind, pure, Except.pure]

theorem writeTable_error : ∀ {l : Dict String Arg} {e : PyErr}, writeTable T l = .error e → e = .typeError
  | [], _, h => by cases h
  | (k, a) :: l, e, h => by
    unfold writeTable at h
    cases hw : write T a with
    | error e' =>
      rw [hw] at h
      cases h
      cases a <;> cases hw <;> rfl
    | ok v =>
      rw [hw] at h
      cases ht : writeTable T l with
      | error e' =>
        rw [ht] at h
        cases h
        exact writeTable_error ht
      | ok t' => rw [ht] at h; cases h

theorem writeTable_inv : ∀ {l : Dict String Arg} {t : FTable}, writeTable T l = .ok t →
    (∀ p ∈ l, ∃ v, write T p.2 = .ok v)
  | [], _, _ => by simp
  | (k, a) :: l, t, h => by
    unfold writeTable at h
    cases hw : write T a with
    | error e => rw [hw] at h; cases h
    | ok v =>
      rw [hw] at h
      cases ht : writeTable T l with
      | error e => rw [ht] at h; cases h
      | ok t' =>
        intro p hp
        rcases List.mem_cons.1 hp with rfl | hp
        · exact ⟨v, hw⟩
        · exact writeTable_inv ht p hp

/-- An entry as it is read. -/
def readEntry (T : Texts) (r : Rotor) (p : String × FVal) : String × Arg :=
  (p.1, if p.1 = "rotor" then .rotor r else read T p.2)

theorem readTable_eq {r : Rotor} : ∀ {t : FTable},
    ("rotor" ∈ t.keys → loadAux sp pd fuel fs path = some (.ok r)) →
    readTable T sp pd fuel fs path t = some (.ok (t.map (readEntry T r)))
  | [], _ => rfl
  | (k, v) :: t, h => by
    have ih := readTable_eq (t := t) fun hk => h (by
      simp only [Dict.keys, List.map_cons, List.mem_cons] at hk ⊢; exact .inr hk)
    unfold readTable
    by_cases hk : k = "rotor"
    · rw [if_pos hk, h (by simp [Dict.keys, hk]), ih]
      simp [readEntry, hk, Except.map]
    · rw [if_neg hk, ih]
      simp [readEntry, hk, Except.map]

theorem get?_of_mem {α : Type} : ∀ {l : Dict String α} {k : String} {a : α}, l.keys.Nodup → (k, a) ∈ l →
    l.get? k = some a
  | (k', a') :: l, k, a, hn, hm => by
    simp only [Dict.keys, List.map_cons, List.nodup_cons] at hn
    rcases List.mem_cons.1 hm with h | h
    · cases h; simp [Dict.get?]
    · have : k' ≠ k := fun hc => hn.1 (hc ▸ List.mem_map.2 ⟨_, h, rfl⟩)
      rw [Dict.get?, if_neg this]
      exact get?_of_mem hn.2 h

theorem mem_of_get? {α : Type} : ∀ {l : Dict String α} {k : String} {a : α}, l.get? k = some a → (k, a) ∈ l
  | (k', a') :: l, k, a, h => by
    unfold Dict.get? at h
    by_cases hk : k' = k
    · rw [if_pos hk] at h; cases h; rw [hk]; exact List.mem_cons_self
    · rw [if_neg hk] at h; exact List.mem_cons_of_mem _ (mem_of_get? h)

theorem get?_filterMap {α β : Type} (g : String × α → Option β) : ∀ {l : Dict String α} {k : String} {a : α},
    l.keys.Nodup → (k, a) ∈ l →
    Dict.get? (l.filterMap fun p => (g p).map fun b => (p.1, b)) k = g (k, a)
  | (k', a') :: l, k, a, hn, hm => by
    simp only [Dict.keys, List.map_cons, List.nodup_cons] at hn
    have hno : ∀ {x : String}, x ∉ l.map Prod.fst →
        Dict.get? (l.filterMap fun p => (g p).map fun b => (p.1, b)) x = none := by
      intro x hx
      apply Dict.get?_none_of_not_mem
      intro hc
      obtain ⟨q, hq, rfl⟩ := List.mem_map.1 hc
      obtain ⟨p, hp, he⟩ := List.mem_filterMap.1 hq
      cases hg : g p with
      | none => rw [hg] at he; cases he
      | some b => rw [hg] at he; cases he; exact hx (List.mem_map.2 ⟨p, hp, rfl⟩)
    rcases List.mem_cons.1 hm with h | h
    · obtain ⟨rfl, rfl⟩ := Prod.mk.inj h
      cases hg : g (k, a) with
      | none => rw [List.filterMap_cons, hg]; simpa using hno hn.1
      | some b => rw [List.filterMap_cons, hg]; simp [Dict.get?]
    · have hk : k' ≠ k := fun hc => hn.1 (hc ▸ List.mem_map.2 ⟨_, h, rfl⟩)
      have ih := get?_filterMap g hn.2 h
      cases hg : g (k', a') with
      | none => rw [List.filterMap_cons, hg]; simpa using ih
      | some b => rw [List.filterMap_cons, hg]; simpa [Dict.get?, hk] using ih

theorem construct_ok {cls : Cls} {args t : Dict String Arg} {g : String × Arg → Option Arg}
    (hk : args.map Prod.fst = cls.params) (ht : ∀ k ∈ t.keys, k ∈ cls.params)
    (hg : ∀ p ∈ args, t.get? p.1 = g p) (ho : ∀ p ∈ args, g p = none → p.1 ∈ cls.optional) :
    construct cls t = .ok ⟨cls, args.map fun p => (p.1, (g p).getD .null)⟩ := by
  unfold construct
  rw [if_pos (by simpa [List.all_eq_true] using ht)]
  have : cls.params.mapM (argument cls t) =
      .ok (args.map fun p => (p.1, (g p).getD .null)) := by
    rw [mapM_ok_iff, ← hk, List.map_map, List.map_map]
    refine List.map_congr_left fun p hp => ?_
    simp only [Function.comp, argument]
    rw [hg p hp]
    cases h : g p with
    | some a => rfl
    | none => simp [ho p hp h]
  rw [this]
  rfl

theorem construct_inv {cls : Cls} {t : Dict String Arg} {o : Obj} (h : construct cls t = .ok o) :
    o.cls = cls ∧ (∀ k ∈ t.keys, k ∈ cls.params) ∧
      ∀ k a, k ∈ cls.params → t.get? k = some a → (k, a) ∈ o.args := by
  unfold construct at h
  split at h
  · rename_i hk
    cases hm : cls.params.mapM (argument cls t) with
    | error e => rw [hm] at h; cases h
    | ok args =>
      rw [hm] at h
      cases h
      refine ⟨rfl, by simpa [List.all_eq_true] using hk, fun k a hk ha => ?_⟩
      rw [mapM_ok_iff] at hm
      have h1 : (.ok (k, a) : Res (String × Arg)) ∈ args.map .ok := by
        rw [← hm]
        exact List.mem_map.2 ⟨k, hk, by simp [argument, ha]⟩
      obtain ⟨x, hx, he⟩ := List.mem_map.1 h1
      cases he
      exact hx
  · cases h

theorem width_le {n : ℕ} : ∀ {l : List String}, width l ≤ n ↔ ∀ s ∈ l, s.length ≤ n
  | [] => by simp [width]
  | s :: l => by
    have ih := width_le (n := n) (l := l)
    unfold width at ih ⊢
    simp [ih]

theorem isStrType_iff {l : List String} :
    isStrType (width l) = true ↔ (∃ s ∈ l, 40 ≤ s.length) ∧ ∀ s ∈ l, s.length < 50 := by
  have h1 := @width_le 39 l
  have h2 := @width_le 49 l
  unfold isStrType
  simp only [Bool.and_eq_true, decide_eq_true_eq]
  constructor
  · rintro ⟨ha, hb⟩
    constructor
    · by_contra hc
      push Not at hc
      have := h1.2 fun s hs => by have := hc s hs; omega
      omega
    · intro s hs
      have := h2.1 (by omega) s hs
      omega
  · rintro ⟨⟨s, hs, ha⟩, hb⟩
    constructor
    · by_contra hc
      have := h1.1 (by omega) s hs
      omega
    · have := h2.2 fun s hs => by have := hb s hs; omega
      omega

theorem parse_all : ∀ {l : List ℂ}, (∀ z ∈ l, ReadBack T z) → (l.map T.str).mapM T.parse = some l
  | [], _ => rfl
  | z :: l, h => by
    have h1 : T.parse (T.str z) = some z := h z List.mem_cons_self
    simp [h1, parse_all fun w hw => h w (List.mem_cons_of_mem _ hw)]

theorem read_texts {l : List String} (hl : l ≠ []) :
    read T (.texts l) = if isStrType (width l) then
      match l.mapM T.parse with
      | some zs => .cplx zs
      | none => .texts l
    else .texts l := by
  cases l with
  | nil => exact absurd rfl hl
  | cons a l => rfl

theorem read_text_ne (s s' : String) : read T (.text s) ≠ .other s' := by
  have h : read T (.text s) = if isStrType s.length then
      match T.parse s with
      | some z => .cplx0 z
      | none => .text s
    else .text0 s := rfl
  rw [h]
  cases T.parse s <;> split <;> simp

/-- Values that survive are read as they were. -/
theorem survives_read {a : Arg} (h : Survives T a) :
    ∃ v, write T a = .ok (some v) ∧ read T v = a := by
  cases a with
  | num x => exact ⟨_, rfl, rfl⟩
  | flag b => exact ⟨_, rfl, rfl⟩
  | real l => exact ⟨_, rfl, rfl⟩
  | cplx l =>
    refine ⟨_, rfl, ?_⟩
    obtain ⟨⟨z, hz, h1⟩, h2, hT⟩ := h
    have hl : l.map T.str ≠ [] := by
      intro hc; rw [List.map_eq_nil_iff] at hc; subst hc; cases hz
    rw [read_texts hl, if_pos, parse_all hT]
    rw [isStrType_iff]
    refine ⟨⟨_, List.mem_map.2 ⟨z, hz, rfl⟩, h1⟩, fun s hs => ?_⟩
    obtain ⟨w, hw, rfl⟩ := List.mem_map.1 hs
    exact h2 w hw
  | texts l =>
    refine ⟨_, rfl, ?_⟩
    obtain ⟨hl, h1⟩ := h
    rw [read_texts hl, if_neg]
    rw [isStrType_iff]
    rintro ⟨⟨s, hs, h2⟩, h3⟩
    rcases h1 with ⟨s', hs', h4⟩ | h4
    · have := h3 s' hs'; omega
    · have := h4 s hs; omega
  | _ => cases h

theorem aux_ne (path : String) : aux path ≠ path := by
  intro h
  have := congrArg (fun s : String => s.toList.length) h
  simp [aux] at this
  omega

theorem partsOf_eq (c : Cls) : partsOf c = c.params := by cases c <;> rfl

theorem partsOf_nodup (c : Cls) : (partsOf c).Nodup := by cases c <;> decide

theorem params_nodup (c : Cls) : c.params.Nodup := by cases c <;> decide

theorem rotor_not_optional (c : Cls) : "rotor" ∉ c.optional := by cases c <;> decide

theorem name_inj {c c' : Cls} (h : c.name = c'.name) : c = c' := by
  cases c <;> cases c' <;> first | rfl | (exact absurd h (by decide))

theorem name_campbell {c : Cls} : c.name = "CampbellResults" ↔ c = .campbell := by
  cases c <;> decide

theorem rotor_key_not_campbell : "rotor" ∉ Cls.campbell.params := by decide

theorem get?_dropModal {d : Dict String FTable} {k : String} (h : k ≠ "CampbellResults") :
    (dropModal d).get? k = d.get? k := by
  induction d with
  | nil => rfl
  | cons p d ih =>
    unfold dropModal at ih ⊢
    by_cases hk : p.1 = k
    · simp [Dict.get?, hk, h]
    · simp [Dict.get?, hk, ih]

theorem keys_dropModal (d : Dict String FTable) : (dropModal d).keys = d.keys := by
  simp [dropModal, Dict.keys, Function.comp_def]

theorem values_set_head {α : Type} {d : Dict String α} {k : String} (v : α)
    (h : d = [] ∨ d.keys.head? = some k) : ∃ t, (d.set k v).values = v :: t := by
  rcases d with - | ⟨p, d⟩
  · exact ⟨[], rfl⟩
  · have hk : p.1 = k := by
      rcases h with h | h
      · cases h
      · simpa [Dict.keys] using h
    obtain ⟨k', v'⟩ := p
    simp only at hk
    exact ⟨d.map Prod.snd, by simp [Dict.set, hk, Dict.values]⟩


theorem before_first {c : Cls} (h : FirstOf fs path c) :
    ∃ d, before fs path = .ok d ∧ (d = [] ∨ d.keys.head? = some c.name) := by
  rcases h with h | ⟨d, h, hd⟩
  · exact ⟨[], by simp [before, h], .inl rfl⟩
  · exact ⟨d, by simp [before, h], hd⟩

theorem keptArgs_ne {o : Obj} (h : o.cls ≠ .campbell) : keptArgs o = o.args := by
  simp [keptArgs, h]

theorem del_sublist {α : Type} : ∀ (l : Dict String α) (k : String), List.Sublist (l.del k) l
  | [], _ => List.Sublist.slnil
  | (k', v) :: l, k => by
    unfold Dict.del
    split
    · exact List.sublist_cons_self _ _
    · exact (del_sublist l k).cons_cons _

theorem kept_sublist (o : Obj) : List.Sublist (keptArgs o) o.args := by
  unfold keptArgs
  split
  · exact del_sublist _ _
  · exact List.Sublist.refl _

theorem kept_nodup {o : Obj} (h : MadeResults o) : (keptArgs o).keys.Nodup := by
  have h1 : o.args.keys.Nodup := by
    unfold MadeResults at h
    unfold Dict.keys
    rw [h]; exact params_nodup _
  exact h1.sublist ((kept_sublist o).map _)

theorem written_keys (l : Dict String Arg) :
    List.Sublist (Dict.keys (l.filterMap (written T))) l.keys := by
  induction l with
  | nil => exact List.Sublist.slnil
  | cons p l ih =>
    rw [List.filterMap_cons]
    cases h : written T p with
    | none => exact ih.cons _
    | some q =>
      have : q.1 = p.1 := by
        unfold written at h
        split at h
        · cases h; rfl
        · cases h
      simp only [Dict.keys, List.map_cons, this] at ih ⊢
      exact ih.cons_cons _

/-- How a successful call of `save` leaves the files. -/
theorem save_inv {o : Obj} {fs' : Files} (h : save T fs path o = (fs', .ok ())) :
    ∃ d, before fs path = .ok d ∧ (∀ p ∈ keptArgs o, ∃ v, write T p.2 = .ok v) ∧
      fs'.get? path = some (.results ((dropModal d).set o.cls.name ((keptArgs o).filterMap (written T)))) ∧
      (∀ q, q ≠ path → q ≠ aux path → fs'.get? q = fs.get? q) := by
  unfold save at h
  cases hb : before fs path with
  | error e => rw [hb] at h; cases h
  | ok d =>
    rw [hb] at h
    cases hw : writeTable T (keptArgs o) with
    | error e => simp [hw] at h
    | ok t =>
      have hv := writeTable_inv hw
      rw [writeTable_eq hv] at hw
      rw [writeTable_eq hv] at h
      simp only [saveAux] at h
      refine ⟨d, rfl, hv, ?_⟩
      split at h
      · obtain ⟨rfl, -⟩ := Prod.mk.inj h
        exact ⟨Dict.get?_set_self _ _ _, fun q hq _ => Dict.get?_set_ne _ _ (Ne.symm hq)⟩
      · split at h
        · obtain ⟨rfl, -⟩ := Prod.mk.inj h
          refine ⟨?_, fun q hq hq' => ?_⟩
          · rw [Dict.get?_set_ne _ _ (aux_ne path), Dict.get?_set_self]
          · rw [Dict.get?_set_ne _ _ (Ne.symm hq'), Dict.get?_set_ne _ _ (Ne.symm hq)]
        · cases (Prod.mk.inj h).2
      · cases (Prod.mk.inj h).2

theorem readTable_inv : ∀ {t : FTable} {l : Dict String Arg},
    readTable T sp pd fuel fs path t = some (.ok l) →
    l.keys = t.keys ∧ ∀ p ∈ t, p.1 ≠ "rotor" → (p.1, read T p.2) ∈ l
  | [], l, h => by
    cases h
    exact ⟨rfl, by simp⟩
  | (k, v) :: t, l, h => by
    unfold readTable at h
    have step : ∀ b : Arg, (k ≠ "rotor" → b = read T v) →
        ((readTable T sp pd fuel fs path t).map fun x => x.map fun t' => (k, b) :: t') = some (.ok l) →
        l.keys = Dict.keys ((k, v) :: t) ∧ ∀ p ∈ (k, v) :: t, p.1 ≠ "rotor" → (p.1, read T p.2) ∈ l := by
      intro b hb h
      cases hr : readTable T sp pd fuel fs path t with
      | none => rw [hr] at h; cases h
      | some x =>
        cases x with
        | error e => rw [hr] at h; cases h
        | ok l' =>
          rw [hr] at h
          cases h
          obtain ⟨h1, h2⟩ := readTable_inv hr
          refine ⟨by simpa [Dict.keys] using h1, fun p hp hn => ?_⟩
          rcases List.mem_cons.1 hp with rfl | hp
          · rw [hb hn]; exact List.mem_cons_self
          · exact List.mem_cons_of_mem _ (h2 p hp hn)
    split at h
    · rename_i hk
      split at h
      · cases h
      · cases h
      · exact step _ (fun hc => absurd hk hc) h
    · exact step _ (fun _ => rfl) h

/-- What a successful `load` found in the first table. -/
theorem load_inv {c : Cls} {o : Obj} (h : load T sp pd fuel fs c path = some (.ok o)) :
    ∃ d t ts l, fs.get? path = some (.results d) ∧ d.values = t :: ts ∧
      readTable T sp pd fuel fs path t = some (.ok l) ∧
      construct c (if c = .campbell then l.set "modal_results" .null else l) = .ok o := by
  unfold load at h
  split at h
  · cases h
  · cases h
  · rename_i d hd
    split at h
    · cases h
    · rename_i t ts hv
      cases hr : readTable T sp pd fuel fs path t with
      | none => rw [hr] at h; cases h
      | some x =>
        cases x with
        | error e => rw [hr] at h; cases h
        | ok l =>
          rw [hr] at h
          exact ⟨d, t, ts, l, hd, hv, hr, Option.some.inj h⟩

/-- An attribute of loaded results is what is read of what was written. -/
theorem entry {o o' : Obj} {fs' : Files} (hm : MadeResults o) (hf : FirstOf fs path o.cls)
    (hs : save T fs path o = (fs', .ok ())) (hl : load T sp pd fuel fs' o.cls path = some (.ok o')) {k : String} {a : Arg}
    {v : FVal} (ha : (k, a) ∈ o.args) (hw : write T a = .ok (some v)) (hk : k ≠ "rotor")
    (hk' : o.cls = .campbell → k ≠ "modal_results") : (k, read T v) ∈ o'.args := by
  obtain ⟨d, hb, hv, hg, -⟩ := save_inv hs
  obtain ⟨d', t, ts, l, hg', hv', hr, hc⟩ := load_inv hl
  rw [hg] at hg'
  cases hg'
  obtain ⟨d1, hb', hd⟩ := before_first hf
  rw [hb] at hb'
  cases hb'
  have hd' : dropModal d = [] ∨ (dropModal d).keys.head? = some o.cls.name := by
    rw [keys_dropModal]
    rcases hd with rfl | hd
    · exact .inl rfl
    · exact .inr hd
  obtain ⟨ts', ht⟩ := values_set_head ((keptArgs o).filterMap (written T)) hd'
  rw [ht] at hv'
  cases hv'
  obtain ⟨h1, h2⟩ := readTable_inv hr
  have ho : o.args.keys.Nodup := by
    unfold Dict.keys; rw [hm]; exact partsOf_nodup _
  have hin : (k, a) ∈ keptArgs o := by
    unfold keptArgs
    split
    · rename_i hc
      apply mem_of_get?
      rw [Dict.get?_del _ _ _ ho, if_neg (Ne.symm (hk' hc)), get?_of_mem ho ha]
    · exact ha
  have h3 := h2 (k, v) (List.mem_filterMap.2 ⟨(k, a), hin, by simp [written, hw]⟩) hk
  have hn : l.keys.Nodup := by
    rw [h1]
    exact (kept_nodup hm).sublist (written_keys _)
  have h4 := get?_of_mem hn h3
  refine (construct_inv hc).2.2 k _ ?_ ?_
  · rw [← partsOf_eq, ← hm]; exact List.mem_map.2 ⟨_, ha, rfl⟩
  · split
    · rename_i hc'
      rw [Dict.get?_set_ne _ _ (Ne.symm (hk' hc')), h4]
    · exact h4

/-- Some rotor. -/
def anyRotor : Rotor where
  shaft := []
  disks := []
  bearings := []
  pms := []
  placed := []
  number_dof := 0
  ndof := 0
  axial_cg_pos := []
  nodes_pos := []
  nodes_i_d := []
  nodes_o_d := []
  shaft_elements_length := []
  L := 0
  link_nodes := []
  m_disks := 0
  m_shaft := 0
  m := 0
  CG := 0
  Ip := 0
  df := []
  min_w := none
  max_w := none
  rated_w := none
  tag := ""

/-- The value that comes back. -/
def back (T : Texts) (r : Rotor) (p : String × Arg) : Arg :=
  match write T p.2 with
  | .ok (some v) => if p.1 = "rotor" then .rotor r else read T v
  | _ => .null

/-- Saving and loading, with the values that come back. -/
theorem roundtrip {o : Obj} {d : Dict String FTable} {r : Rotor} {fs' : Files} (hm : MadeResults o)
    (hc : o.cls ≠ .campbell) (hd : d = [] ∨ d.keys.head? = some o.cls.name)
    (hg : fs'.get? path = some (.results ((dropModal d).set o.cls.name (o.args.filterMap (written T)))))
    (hr : "rotor" ∈ o.cls.params → loadAux sp pd fuel fs' path = some (.ok r))
    (hw : ∀ p ∈ o.args, (∃ v, write T p.2 = .ok (some v)) ∨ p.1 ∈ o.cls.optional) :
    load T sp pd fuel fs' o.cls path = some (.ok ⟨o.cls, o.args.map fun p => (p.1, back T r p)⟩) := by
  have hd' : dropModal d = [] ∨ (dropModal d).keys.head? = some o.cls.name := by
    rw [keys_dropModal]
    rcases hd with rfl | hd
    · exact .inl rfl
    · exact .inr hd
  obtain ⟨ts', ht⟩ := values_set_head (o.args.filterMap (written T)) hd'
  have hsub : ∀ k ∈ Dict.keys (o.args.filterMap (written T)), k ∈ o.cls.params := by
    intro k hk
    rw [← partsOf_eq, ← hm]
    exact (written_keys (T := T) o.args).subset hk
  have h1 := readTable_eq (T := T) (sp := sp) (pd := pd) (fuel := fuel) (fs := fs') (path := path) (r := r)
    (t := o.args.filterMap (written T)) fun hk => hr (hsub _ hk)
  unfold load
  rw [hg]
  dsimp only
  rw [ht]
  dsimp only
  rw [h1, Option.map_some]
  simp only [Except.bind, if_neg hc]
  let g : String × Arg → Option Arg := fun p => match write T p.2 with
    | .ok (some v) => some (if p.1 = "rotor" then .rotor r else read T v)
    | _ => none
  have hn : o.args.keys.Nodup := by
    unfold Dict.keys; rw [hm]; exact partsOf_nodup _
  have he : (o.args.filterMap (written T)).map (readEntry T r) =
      o.args.filterMap fun p => (g p).map fun b => (p.1, b) := by
    rw [List.map_filterMap]
    refine List.filterMap_congr fun p _ => ?_
    unfold written readEntry
    simp only [g]
    split <;> simp
  rw [he]
  rw [construct_ok (g := g) hm ?_ ?_ ?_]
  · congr 3
    refine List.map_congr_left fun p _ => ?_
    simp only [g, back]
    split <;> simp
  · intro k hk
    rw [← he] at hk
    simp only [Dict.keys, List.map_map] at hk
    exact hsub k (by simpa [Dict.keys, Function.comp_def, readEntry] using hk)
  · intro p hp
    exact get?_filterMap g hn hp
  · intro p hp hg
    rcases hw p hp with ⟨v, hv⟩ | h
    · simp [g, hv] at hg
    · exact h

end Ross.ResultsFileLemmas
