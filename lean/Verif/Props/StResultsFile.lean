import Verif.Lemmas.ResultsFile
import Verif.Spec.StResultsFile

/-!
# Saving and loading random results (C117)
-/

namespace Ross.Props

open ResultsFile (Arg FVal FTable Texts writeTable write width) 
open Spec ResultsFileLemmas StResultsFile

variable {T : Texts} {fs : Files} {path : String}

theorem width49 {l : List ℂ} : width (l.map T.str) = 49 ↔ Longest49 T l := by
  have h1 := @width_le 48 (l.map T.str)
  have h2 := @width_le 49 (l.map T.str)
  simp only [List.forall_mem_map] at h1 h2
  unfold Longest49
  constructor
  · intro h
    have hb := h2.1 h.le
    refine ⟨?_, hb⟩
    by_contra hc
    push Not at hc
    have := h1.2 fun z hz => by have := hb z hz; have := hc z hz; omega
    omega
  · rintro ⟨⟨z, hz, ha⟩, hb⟩
    have := h2.2 hb
    by_contra hc
    have := h1.1 (by omega) z hz
    omega

theorem st_params_nodup (c : Cls) : c.params.Nodup := by cases c <;> decide

theorem st_name_inj {c c' : Cls} (h : c.name = c'.name) : c = c' := by
  cases c <;> cases c' <;> first | rfl | (exact absurd h (by decide))

/-- The file begins with the table that was saved. -/
theorem first_set {d : Dict String FTable} {k : String} (t : FTable) (h : d = [] ∨ d.keys.head? = some k) :
    ∃ ts, (d.set k t).values = t :: ts := by
  rcases h with rfl | h
  · exact ⟨[], rfl⟩
  · cases d with
    | nil => cases h
    | cons p d =>
      obtain ⟨k', t'⟩ := p
      have : k' = k := by simpa [Dict.keys] using h
      subst this
      exact ⟨Dict.values d, by simp [Dict.set, Dict.values]⟩

theorem holds_eq (c : Cls) : holds c = c.params := by cases c <;> rfl

theorem st_value {o : Obj} (hm : MadeRandom T o) {p : String × Arg} (hp : p ∈ o.args) :
    ∃ v b, write T p.2 = .ok (some v) ∧ StResultsFile.read T v = .ok b ∧ CameBack T p.2 b := by
  obtain ⟨k, a⟩ := p
  rcases hm.2 k a hp with ⟨x, rfl⟩ | ⟨l, rfl⟩ | ⟨l, hl, rfl, hr⟩
  · exact ⟨_, _, rfl, rfl, by simp [CameBack]⟩
  · exact ⟨_, _, rfl, rfl, by simp [CameBack]⟩
  · have hne : l.map T.str ≠ [] := by simpa using hl
    have hread : StResultsFile.read T (.texts (l.map T.str)) = if width (l.map T.str) = 49 then
        (match (l.map T.str).mapM T.parse with
        | some zs => .ok (.cplx zs)
        | none => .error .valueError) else .ok (.texts (l.map T.str)) := by
      cases h : l.map T.str with
      | nil => exact absurd h hne
      | cons s t => rfl
    refine ⟨.texts (l.map T.str), if width (l.map T.str) = 49 then .cplx l else .texts (l.map T.str), rfl, ?_, ?_⟩
    · rw [hread, parse_all hr]
      split_ifs <;> rfl
    · refine ⟨by simp, by simp, ?_⟩
      rintro l' h
      cases h
      rw [← width49]
      exact ⟨fun h => if_pos h, fun h => if_neg h⟩

/-- C117: random results that are saved to a new file, or over results of the same class at its beginning, are loaded as
results of the same class with the same numbers and arrays of real numbers; arrays of complex numbers come back if the
longest text of a number has 49 characters, and as arrays of texts otherwise. -/
theorem C117_load_partial {o : Obj} (hm : MadeRandom T o) (hf : FirstRandom fs path o.cls) :
    ∃ fs' o', save T fs path o = (fs', .ok ()) ∧ load T fs' o.cls path = .ok o' ∧ o'.cls = o.cls ∧
      List.Forall₂ (fun p q => p.1 = q.1 ∧ CameBack T p.2 q.2) o.args o'.args := by
  have hv : ∀ p ∈ o.args, ∃ v b, write T p.2 = .ok (some v) ∧ StResultsFile.read T v = .ok b ∧ CameBack T p.2 b :=
    fun p hp => st_value hm hp
  have hn : o.args.keys.Nodup := by
    unfold Dict.keys; rw [hm.1]; exact st_params_nodup _
  have hw : writeTable T o.args = .ok (o.args.filterMap (written T)) :=
    writeTable_eq fun p hp => by
      obtain ⟨v, -, h, -⟩ := hv p hp
      exact ⟨_, h⟩
  -- what is read of the table
  have hread : ∀ l : Dict String Arg, (∀ p ∈ l, p ∈ o.args) → ∃ a : Dict String Arg,
      ((l.filterMap (written T)).mapM fun kv => (do
        let v ← StResultsFile.read T kv.2
        pure (kv.1, v) : Res (String × Arg))) = .ok a ∧
      List.Forall₂ (fun p q => p.1 = q.1 ∧ CameBack T p.2 q.2) l a := by
    intro l
    induction l with
    | nil => exact fun _ => ⟨[], rfl, .nil⟩
    | cons p l ih =>
      intro hl
      obtain ⟨a, ha, hf⟩ := ih fun q hq => hl q (List.mem_cons_of_mem _ hq)
      obtain ⟨v, b, h1, h2, h3⟩ := hv p (hl p List.mem_cons_self)
      refine ⟨(p.1, b) :: a, ?_, .cons ⟨rfl, h3⟩ hf⟩
      have : written T p = some (p.1, v) := by simp [written, h1]
      rw [List.filterMap_cons, this]
      simp only
      rw [List.mapM_cons, ha, h2]
      rfl
  obtain ⟨a, ha, hfa⟩ := hread o.args fun p hp => hp
  have hkeys : a.map Prod.fst = o.cls.params := by
    rw [← holds_eq, ← hm.1]
    clear ha
    generalize o.args = l at hfa
    induction hfa with
    | nil => rfl
    | cons h _ ih => rw [List.map_cons, List.map_cons, ih, h.1]
  have hcon : StResultsFile.construct o.cls a = .ok ⟨o.cls, a⟩ := by
    unfold StResultsFile.construct
    rw [if_pos (by rw [List.all_eq_true]; intro k hk; simpa [Dict.keys, hkeys] using hk)]
    have : o.cls.params.mapM (StResultsFile.argument a) = .ok a := by
      rw [mapM_ok_iff, ← hkeys, List.map_map]
      refine List.map_congr_left fun p hp => ?_
      have : a.get? p.1 = some p.2 := get?_of_mem (by unfold Dict.keys; rw [hkeys]; exact st_params_nodup _) hp
      simp [this, StResultsFile.argument]
    rw [this]
    rfl
  obtain ⟨ts, hts⟩ : ∃ ts, (Dict.set ((fs.get? path).getD []) o.cls.name (o.args.filterMap (written T))).values =
      o.args.filterMap (written T) :: ts := by
    apply first_set
    rcases hf with h | ⟨d, h, hd⟩
    · exact .inl (by rw [h]; rfl)
    · rw [h]; exact hd
  refine ⟨_, ⟨o.cls, a⟩, by unfold save; simp only; rw [hw], ?_, rfl, hfa⟩
  unfold load
  rw [Dict.get?_set_self]
  simp only
  rw [hts]
  simp only
  rw [ha]
  exact hcon

/-- C117: results all of whose complex arrays have a longest text of 49 characters come back as they were. -/
theorem C117_same {o : Obj} (hm : MadeRandom T o) (hf : FirstRandom fs path o.cls)
    (h49 : ∀ k l, (k, .cplx l) ∈ o.args → Longest49 T l) :
    ∃ fs', save T fs path o = (fs', .ok ()) ∧ load T fs' o.cls path = .ok o := by
  obtain ⟨fs', ⟨c, a⟩, h1, h2, rfl, h3⟩ := C117_load_partial hm hf
  refine ⟨fs', h1, ?_⟩
  have : o.args = a := by
    have hall : ∀ p ∈ o.args, ∀ b, CameBack T p.2 b → b = p.2 := by
      rintro ⟨k, a⟩ hp b hb
      rcases hm.2 k a hp with ⟨x, rfl⟩ | ⟨l, rfl⟩ | ⟨l, hl, rfl, hr⟩
      · exact hb.1 _ rfl
      · exact hb.2.1 _ rfl
      · exact (hb.2.2 _ rfl).1 (h49 k l hp)
    clear h2 h1 hm h49
    simp only at h3
    generalize o.args = l at h3 hall
    induction h3 with
    | nil => rfl
    | @cons p q l l' h _ ih =>
      rw [← ih fun p hp => hall p (List.mem_cons_of_mem _ hp)]
      have := hall p List.mem_cons_self _ h.2
      rw [List.cons.injEq]
      exact ⟨Prod.ext h.1 this.symm, rfl⟩
  obtain ⟨c, args⟩ := o
  simp only at this
  subst this
  exact h2

/-- C117 is false of all other complex arrays, such as those all of whose real parts are positive: they come back as
arrays of texts. -/
theorem C117_complex_false {o : Obj} (hm : MadeRandom T o) (hf : FirstRandom fs path o.cls) {k : String} {l : List ℂ}
    (hk : (k, .cplx l) ∈ o.args) (h49 : ¬ Longest49 T l) :
    ∃ fs' o', save T fs path o = (fs', .ok ()) ∧ load T fs' o.cls path = .ok o' ∧ o' ≠ o ∧
      (k, .texts (l.map T.str)) ∈ o'.args := by
  obtain ⟨fs', o', h1, h2, h3, h4⟩ := C117_load_partial hm hf
  have hmem : (k, Arg.texts (l.map T.str)) ∈ o'.args := by
    obtain ⟨i, hi, he⟩ := List.getElem_of_mem hk
    have hfi := List.forall₂_iff_get.1 h4
    have hi' : i < o'.args.length := by rw [← hfi.1]; exact hi
    have := hfi.2 i hi hi'
    simp only [List.get_eq_getElem] at this
    rw [he] at this
    have e := (this.2.2.2 l rfl).2 h49
    have : o'.args[i] = (k, Arg.texts (l.map T.str)) := Prod.ext this.1.symm e
    exact this ▸ List.getElem_mem _
  refine ⟨fs', o', h1, h2, ?_, hmem⟩
  rintro rfl
  rcases hm.2 _ _ hmem with ⟨x, h⟩ | ⟨l, h⟩ | ⟨l, -, h, -⟩ <;> cases h

/-- C117: saving touches no other file, and keeps the other results in the file. -/
theorem C117_other {o : Obj} {fs' : Files} (hs : save T fs path o = (fs', .ok ())) :
    (∀ q, q ≠ path → fs'.get? q = fs.get? q) ∧
      ∃ d', fs'.get? path = some d' ∧ ∀ d, fs.get? path = some d → ∀ k, k ≠ o.cls.name → d'.get? k = d.get? k := by
  unfold save at hs
  simp only at hs
  cases hw : writeTable T o.args with
  | error e => rw [hw] at hs; cases hs
  | ok t =>
    rw [hw] at hs
    simp only [Prod.mk.injEq, and_true] at hs
    subst hs
    refine ⟨fun q hq => Dict.get?_set_ne _ _ (Ne.symm hq), _, Dict.get?_set_self _ _ _, fun d hd k hk => ?_⟩
    rw [hd]
    exact Dict.get?_set_ne _ _ (Ne.symm hk)

/-- C117 is false of results that are saved to a file that begins with those of another class: the first table is read
whatever its name, and loading them is a `TypeError`. -/
theorem C117_second_false {o₁ o₂ : Obj} (h1m : MadeRandom T o₁) (h2m : MadeRandom T o₂) (hne : o₁.cls ≠ o₂.cls)
    (hf : fs.get? path = none) :
    ∃ fs₁ fs₂, save T fs path o₁ = (fs₁, .ok ()) ∧ save T fs₁ path o₂ = (fs₂, .ok ()) ∧
      load T fs₂ o₂.cls path = .error .typeError := by
  obtain ⟨fs₁, o', s1, l1, hc, hfa⟩ := C117_load_partial h1m (.inl hf : FirstRandom fs path o₁.cls)
  have hw2 : writeTable T o₂.args = .ok (o₂.args.filterMap (written T)) :=
    writeTable_eq fun p hp => by
      obtain ⟨v, -, h, -⟩ := st_value h2m hp
      exact ⟨_, h⟩
  have hw1 : writeTable T o₁.args = .ok (o₁.args.filterMap (written T)) :=
    writeTable_eq fun p hp => by
      obtain ⟨v, -, h, -⟩ := st_value h1m hp
      exact ⟨_, h⟩
  have e1 : fs₁.get? path = some [(o₁.cls.name, o₁.args.filterMap (written T))] := by
    unfold save at s1
    simp only at s1
    rw [hw1] at s1
    simp only [Prod.mk.injEq, and_true] at s1
    rw [← s1, Dict.get?_set_self, hf]
    rfl
  refine ⟨fs₁, _, s1, by unfold save; simp only; rw [hw2], ?_⟩
  have hnn : o₁.cls.name ≠ o₂.cls.name := fun h => hne (st_name_inj h)
  unfold load at l1 ⊢
  rw [e1] at l1
  rw [Dict.get?_set_self, e1]
  simp only [Option.getD_some, Dict.set, if_neg hnn, Dict.values, List.map_cons, List.map_nil] at l1 ⊢
  cases ha : (o₁.args.filterMap (written T)).mapM fun kv => (do
        let v ← StResultsFile.read T kv.2
        pure (kv.1, v) : Res (String × Arg)) with
  | error e => rw [ha] at l1; cases l1
  | ok a =>
    rw [ha] at l1
    have l1 : StResultsFile.construct o₁.cls a = .ok o' := l1
    show StResultsFile.construct o₂.cls a = .error .typeError
    -- the keys are those of the first class, one of which the second does not have
    have hkeys : ∀ p ∈ o₁.cls.params, p ∈ Dict.keys a := by
      intro p hp
      by_contra hc
      have hg := Dict.get?_none_of_not_mem (d := a) hc
      unfold StResultsFile.construct at l1
      split_ifs at l1 with hall
      cases hm : o₁.cls.params.mapM (StResultsFile.argument a) with
      | error e => rw [hm] at l1; cases l1
      | ok r =>
        rw [mapM_ok_iff] at hm
        have : (.error .typeError : Res (String × Arg)) ∈ r.map .ok := by
          rw [← hm]
          exact List.mem_map.2 ⟨p, hp, by unfold StResultsFile.argument; rw [hg]⟩
        obtain ⟨_, -, h⟩ := List.mem_map.1 this
        cases h
    have hex : ∃ p ∈ o₁.cls.params, p ∉ o₂.cls.params := by
      revert hne
      generalize o₁.cls = c
      generalize o₂.cls = c'
      intro hne
      cases c <;> cases c' <;> first | (exact absurd rfl hne) | decide
    obtain ⟨p, hp, hp'⟩ := hex
    unfold StResultsFile.construct
    rw [if_neg]
    intro hall
    rw [List.all_eq_true] at hall
    exact hp' (by simpa using hall p (hkeys p hp))

/-! ### Non-vacuity -/

/-- A text of 49 characters. -/
def text49 : String := "(-1.2345678901234567e-05+3.2109876543210987e-07j)"

/-- Two numbers and their texts. -/
noncomputable def twoTexts : Texts where
  str z := if z = 1 then "(1+0j)" else text49
  parse s := if s = "(1+0j)" then some 1 else if s = text49 then some ⟨-1, 3⟩ else none
  rotor _ := "Rotor"

/-- A random frequency response. -/
def exRandom (z : ℂ) : Obj :=
  ⟨.frequencyResponse, [("speed_range", .real [0, 1]), ("freq_resp", .cplx [z, 1]), ("velc_resp", .cplx [z]),
    ("accl_resp", .cplx [z])]⟩

theorem text49_ne : text49 ≠ "(1+0j)" := by decide

theorem exRandom_made {z : ℂ} (hz : z = 1 ∨ z = ⟨-1, 3⟩) : MadeRandom twoTexts (exRandom z) := by
  have h3 : (⟨-1, 3⟩ : ℂ) ≠ 1 := fun h => by
    have := congrArg Complex.re h
    norm_num at this
  have r1 : ReadBack twoTexts 1 := by simp [ReadBack, twoTexts]
  have r3 : ReadBack twoTexts ⟨-1, 3⟩ := by simp [ReadBack, twoTexts, h3, text49_ne]
  have rz : ReadBack twoTexts z := by rcases hz with rfl | rfl <;> assumption
  refine ⟨rfl, fun k a h => ?_⟩
  simp only [exRandom, List.mem_cons, Prod.mk.injEq, List.not_mem_nil, or_false] at h
  rcases h with ⟨-, rfl⟩ | ⟨-, rfl⟩ | ⟨-, rfl⟩ | ⟨-, rfl⟩
  · exact .inr (.inl ⟨_, rfl⟩)
  all_goals exact .inr (.inr ⟨_, by simp, rfl, by simp [r1, rz]⟩)

/-- The response with a long text comes back. -/
example : ∃ fs', save twoTexts [] "a.toml" (exRandom ⟨-1, 3⟩) = (fs', .ok ()) ∧
    load twoTexts fs' .frequencyResponse "a.toml" = .ok (exRandom ⟨-1, 3⟩) := by
  have h3 : (⟨-1, 3⟩ : ℂ) ≠ 1 := fun h => by
    have := congrArg Complex.re h
    norm_num at this
  have hl : text49.length = 49 := by decide
  have h6 : "(1+0j)".length = 6 := by decide
  refine C117_same (exRandom_made (.inr rfl)) (.inl rfl) fun k l h => ?_
  simp only [exRandom, List.mem_cons, Prod.mk.injEq, List.not_mem_nil, or_false, reduceCtorEq, and_false, false_or,
    Arg.cplx.injEq] at h
  rcases h with ⟨-, rfl⟩ | ⟨-, rfl⟩ | ⟨-, rfl⟩ <;> simp [Longest49, twoTexts, h3, hl, h6]

/-- The response one does not. -/
example : ∃ fs' o', save twoTexts [] "a.toml" (exRandom 1) = (fs', .ok ()) ∧
    load twoTexts fs' .frequencyResponse "a.toml" = .ok o' ∧ o' ≠ exRandom 1 ∧
    ("freq_resp", .texts ["(1+0j)", "(1+0j)"]) ∈ o'.args := by
  have h6 : "(1+0j)".length = 6 := by decide
  have := C117_complex_false (T := twoTexts) (fs := []) (path := "a.toml") (exRandom_made (.inl rfl)) (.inl rfl)
    (k := "freq_resp") (l := [1, 1]) (by simp [exRandom]) (by simp [Longest49, twoTexts, h6])
  simpa [twoTexts, exRandom] using this

end Ross.Props
