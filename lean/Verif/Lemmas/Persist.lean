import Verif.Model.Persist
import Verif.Lemmas.DictLemmas
import Verif.Lemmas.Bearing
import Verif.Spec.Persist
import Mathlib.Tactic.FieldSimp
import Mathlib.Tactic.Ring

/-! # Lemmas about saving and loading -/

namespace Ross.PersistLemmas

open Ross.Persist Ross.BearingLemmas

/-! ### Writing a table -/

/-- An entry after writing and reading back. -/
def wr : Option Val → Option Val
  | none => none
  | some v => if v.isNull then none else some (Toml.value v)

theorem table_mem {t : Table} {k : String} (h : k ∈ (Toml.table t).keys) : k ∈ t.keys := by
  simp only [Toml.table, Dict.keys, List.map_map, List.mem_map, List.mem_filter] at h
  obtain ⟨kv, ⟨h1, -⟩, rfl⟩ := h
  exact List.mem_map.2 ⟨kv, h1, rfl⟩

theorem table_get {t : Table} (ht : t.keys.Nodup) (k : String) :
    (Toml.table t).get? k = wr (t.get? k) := by
  induction t with
  | nil => rfl
  | cons kv t ih =>
    obtain ⟨a, v⟩ := kv
    have ha : a ∉ Dict.keys t := (List.nodup_cons.1 ht).1
    have ih := ih (List.nodup_cons.1 ht).2
    by_cases hv : v.isNull
    · have e : Toml.table ((a, v) :: t) = Toml.table t := by
        simp [Toml.table, hv]
      rw [e, ih]
      by_cases hk : a = k
      · subst hk
        rw [Dict.get?_none_of_not_mem t ha]
        simp [Dict.get?, wr, hv]
      · simp [Dict.get?, hk]
    · have e : Toml.table ((a, v) :: t) = (a, Toml.value v) :: Toml.table t := by
        simp [Toml.table, hv]
      rw [e]
      by_cases hk : a = k
      · subst hk
        simp [Dict.get?, wr, hv]
      · simp [Dict.get?, hk, ih]

theorem value_null (v : Val) : (Toml.value v).isNull = v.isNull := by
  cases v <;> rfl

theorem value_value (v : Val) : Toml.value (Toml.value v) = Toml.value v := by
  cases v <;> simp [Toml.value]

theorem table_table (t : Table) : Toml.table (Toml.table t) = Toml.table t := by
  simp only [Toml.table, List.filter_map, List.map_map, List.filter_filter]
  congr 1
  · funext kv; simp [value_value]
  · congr 1
    funext kv
    simp [value_null]

theorem dump_dump (f : TomlFile) : Toml.dump (Toml.dump f) = Toml.dump f := by
  simp only [Toml.dump, List.map_map]
  congr 1
  funext kv
  simp [table_table]

/-! ### Collecting the attributes -/

theorem collect_aux {err : PyErr} {attrs : Table} (params : List String) (t₀ t : Table)
    (h : params.foldlM (fun (t : Table) p =>
      match attrs.get? p with
      | some v => (.ok (t.set p v) : Res Table)
      | none => .error err) t₀ = .ok t) :
    (∀ k, t.get? k = if k ∈ params then attrs.get? k else t₀.get? k) ∧
      (t₀.keys.Nodup → t.keys.Nodup) := by
  induction params generalizing t₀ with
  | nil =>
    cases h
    exact ⟨fun k => by simp, id⟩
  | cons p ps ih =>
    rw [List.foldlM_cons, bind_ok] at h
    obtain ⟨t₁, h1, h2⟩ := h
    cases hp : attrs.get? p with
    | none => rw [hp] at h1; cases h1
    | some v =>
      rw [hp] at h1
      cases h1
      obtain ⟨i1, i2⟩ := ih _ h2
      refine ⟨fun k => ?_, fun hn => i2 (Dict.nodup_set _ _ _ hn)⟩
      rw [i1 k, Dict.get?_set]
      by_cases hk : k ∈ ps
      · simp [hk]
      · by_cases e : p = k
        · subst e; simp [hp]
        · have e' : k ≠ p := fun x => e x.symm
          simp [hk, e, e']

theorem collect_get {err : PyErr} {attrs t : Table} {params : List String}
    (h : collect err attrs params = .ok t) :
    (∀ k, t.get? k = if k ∈ params then attrs.get? k else none) ∧ t.keys.Nodup := by
  obtain ⟨h1, h2⟩ := collect_aux params [] t h
  exact ⟨fun k => by rw [h1 k]; rfl, h2 (by simp [Dict.keys])⟩

theorem collect_keys {err : PyErr} {attrs t : Table} {params : List String}
    (h : collect err attrs params = .ok t) {k : String} (hk : k ∈ t.keys) : k ∈ params := by
  rw [Dict.mem_keys_iff, (collect_get h).1 k] at hk
  by_contra hn
  simp [hn] at hk

theorem collect_ok {err : PyErr} {attrs : Table} {params : List String}
    (h : ∀ p ∈ params, (attrs.get? p).isSome) : ∃ t, collect err attrs params = .ok t := by
  have : ∀ t₀ : Table, ∃ t, params.foldlM (fun (t : Table) p =>
      match attrs.get? p with
      | some v => (.ok (t.set p v) : Res Table)
      | none => .error err) t₀ = .ok t := by
    induction params with
    | nil => exact fun t₀ => ⟨t₀, rfl⟩
    | cons p ps ih =>
      intro t₀
      obtain ⟨v, hv⟩ := Option.isSome_iff_exists.1 (h p (by simp))
      obtain ⟨t, ht⟩ := ih (fun q hq => h q (List.mem_cons_of_mem _ hq)) (t₀.set p v)
      exact ⟨t, by rw [List.foldlM_cons, hv]; exact ht⟩
  exact this []

theorem collect_error {err : PyErr} {attrs : Table} {params : List String} {p : String}
    (hp : p ∈ params) (h : attrs.get? p = none) : collect err attrs params = .error err := by
  have : ∀ t₀ : Table, params.foldlM (fun (t : Table) p =>
      match attrs.get? p with
      | some v => (.ok (t.set p v) : Res Table)
      | none => .error err) t₀ = .error err := by
    induction params with
    | nil => cases hp
    | cons q ps ih =>
      intro t₀
      rw [List.foldlM_cons]
      cases hq : attrs.get? q with
      | none => rfl
      | some v =>
        have : p ∈ ps := by
          rcases List.mem_cons.1 hp with e | e
          · subst e; rw [h] at hq; cases hq
          · exact e
        exact ih this _
  exact this []

theorem collect_read {err : PyErr} {attrs t : Table} {params : List String}
    (h : collect err attrs params = .ok t) (k : String) :
    (Toml.table t).get? k = if k ∈ params then wr (attrs.get? k) else none := by
  rw [table_get (collect_get h).2, (collect_get h).1 k]
  split_ifs <;> rfl

theorem checkKeys_ok {params : List String} {t : Table} (h : ∀ k ∈ t.keys, k ∈ params) :
    checkKeys params t = .ok () := by
  unfold checkKeys
  rw [if_pos]
  simpa using h

/-! ### The single classes -/

theorem disk_roundtrip (d : DiskElement) :
    ∃ t, collect .attributeError (diskAttrs d) diskParams = .ok t ∧
      callDisk (Toml.table t) = .ok d := by
  obtain ⟨t, ht⟩ := collect_ok (err := .attributeError) (attrs := diskAttrs d)
    (params := diskParams) (by simp [diskParams, diskAttrs, Dict.get?])
  refine ⟨t, ht, ?_⟩
  have hg := collect_read ht
  have hk : checkKeys diskParams (Toml.table t) = .ok () :=
    checkKeys_ok fun k hk => collect_keys ht (table_mem hk)
  obtain ⟨n, m, Id, Ip, tag, sf, color⟩ := d
  simp only [callDisk, hk, req, opt, dflt, hg]
  cases tag <;>
  simp [diskParams, diskAttrs, Dict.get?, wr, Val.isNull, Val.ofStr?, Toml.value, asInt, asNum,
    asStr, bind, Except.bind, pure, Except.pure, DiskElement.init]

theorem pm_roundtrip (p : PointMass) :
    ∃ t, collect .attributeError (pmAttrs p) pmParams = .ok t ∧
      callPm (Toml.table t) = .ok p := by
  obtain ⟨t, ht⟩ := collect_ok (err := .attributeError) (attrs := pmAttrs p)
    (params := pmParams) (by simp [pmParams, pmAttrs, Dict.get?])
  refine ⟨t, ht, ?_⟩
  have hg := collect_read ht
  have hk : checkKeys pmParams (Toml.table t) = .ok () :=
    checkKeys_ok fun k hk => collect_keys ht (table_mem hk)
  obtain ⟨n, m, mx, my, tag, color⟩ := p
  simp only [callPm, hk, opt, dflt, hg]
  cases n <;> cases m <;> cases tag <;>
  simp [pmParams, pmAttrs, Dict.get?, wr, Val.isNull, Val.ofStr?, Val.ofInt?, Val.ofNum?,
    Toml.value, asInt, asNum, asStr, bind, Except.bind, pure, Except.pure, PointMass.init, pyFloat]

theorem material_roundtrip {m : Material} {name : String} {rho : ℝ} {E G_s Poisson : Option ℝ}
    {color : String} (h : Material.init name rho E G_s Poisson color = .ok m) (hE : m.E ≠ 0) :
    callMaterial (materialTable m) = .ok m := by
  have key : m.G_s ≠ 0 ∧ m.Poisson = m.E / (2 * m.G_s) - 1 ∧ ' ' ∉ m.name.toList := by
    unfold Material.init at h
    split_ifs at h with h1 h2
    cases E with
    | none =>
      cases G_s with
      | none => simp at h
      | some g =>
        cases Poisson with
        | none => simp at h
        | some p =>
          simp only [Except.ok.injEq] at h
          subst h
          dsimp only at hE ⊢
          have hg : g ≠ 0 := by rintro rfl; simp at hE
          refine ⟨hg, ?_, h1⟩
          field_simp
          ring
    | some e =>
      cases G_s with
      | none =>
        cases Poisson with
        | none => simp at h
        | some p =>
          simp only [bind_ok, Except.ok.injEq, Material.pyDiv] at h
          obtain ⟨g, hg, rfl⟩ := h
          split_ifs at hg with h3
          simp only [Except.ok.injEq] at hg
          subst hg
          dsimp only at hE ⊢
          refine ⟨div_ne_zero hE h3, ?_, h1⟩
          have : (1 + p) ≠ 0 := fun hp => h3 (by rw [hp]; simp)
          field_simp
          ring
      | some g =>
        cases Poisson with
        | some p => simp [Material.given] at h2
        | none =>
          simp only [bind_ok, Except.ok.injEq, Material.pyDiv] at h
          obtain ⟨q, hq, rfl⟩ := h
          split_ifs at hq with h3
          simp only [Except.ok.injEq] at hq
          subst hq
          refine ⟨fun hg => h3 (by dsimp only at hg; rw [hg]; simp), rfl, h1⟩
  obtain ⟨k1, k2, k3⟩ := key
  obtain ⟨nm, rho', E', G', P', col⟩ := m
  dsimp only at *
  simp [callMaterial, materialTable, req, opt, dflt, Dict.get?, asStr, asNum, bind, Except.bind,
    pure, Except.pure, Material.init, k3, Material.given, Material.pyDiv, k1, k2]

theorem shaft_init_inv {L idl odl : ℝ} {idr odr : Option ℝ} {material : Option Material}
    {n : Option ℕ} {axial_force torque : ℝ} {shear_effects rotary_inertia gyroscopic : Bool}
    {shear_method_calc : String} {tag : Option String} {alpha beta : ℝ} {s : ShaftElement}
    (h : ShaftElement.init L idl odl idr odr material n axial_force torque shear_effects
      rotary_inertia gyroscopic shear_method_calc tag alpha beta = .ok s)
    (n' : Option ℕ) (tag' : Option String) :
    material = some s.material ∧ s.material.E ≠ 0 ∧
    ShaftElement.init s.L s.idl s.odl (some s.idr) (some s.odr) (some s.material) n' s.axial_force
      s.torque s.shear_effects s.rotary_inertia s.gyroscopic s.shear_method_calc tag' s.alpha
      s.beta = .ok { s with n := n', tag := tag' } := by
  cases material with
  | none => cases h
  | some m =>
    have hs : s = ⟨L, idl, odl, idr.getD idl, odr.getD odl, m, n, axial_force, torque, shear_effects,
        rotary_inertia, gyroscopic, shear_method_calc, tag, alpha, beta⟩ := by
      unfold ShaftElement.init at h
      dsimp only at h
      split_ifs at h <;> (cases h; rfl)
    subst hs
    dsimp only
    refine ⟨rfl, ?_, ?_⟩
    · unfold ShaftElement.init at h
      dsimp only at h
      split_ifs at h with h1
      all_goals
        intro hE
        apply h1
        right; right; right; left
        rw [hE, zero_mul]
    · unfold ShaftElement.init at h ⊢
      dsimp only [Option.getD_some] at h ⊢
      split_ifs at h with h1 h2 h3 h4 h5 h6 h7 h8 h9
      · exact (if_neg h1).trans ((if_pos h2).trans ((if_neg h3).trans ((if_pos h4).trans
          ((if_neg h5).trans (if_neg h6)))))
      · exact (if_neg h1).trans ((if_pos h2).trans ((if_neg h3).trans ((if_neg h4).trans
          ((if_pos h7).trans ((if_neg h8).trans (if_neg h9))))))
      · exact (if_neg h1).trans (if_neg h2)

/-- What a reader finds under the key `k` in the table of a shaft element. -/
def shaftEntry (s : ShaftElement) (k : String) : Option Val :=
  wr (if "material" = k then some (.tab (materialTable s.material)) else
    if k ∈ shaftParams then (shaftAttrs s).get? k else none)

theorem se_L (s : ShaftElement) : shaftEntry s "L" = some (.num s.L) := by
  simp [shaftEntry, shaftParams, shaftAttrs, Dict.get?, wr, Val.isNull, Toml.value]

theorem se_idl (s : ShaftElement) : shaftEntry s "idl" = some (.num s.idl) := by
  simp [shaftEntry, shaftParams, shaftAttrs, Dict.get?, wr, Val.isNull, Toml.value]

theorem se_odl (s : ShaftElement) : shaftEntry s "odl" = some (.num s.odl) := by
  simp [shaftEntry, shaftParams, shaftAttrs, Dict.get?, wr, Val.isNull, Toml.value]

theorem se_idr (s : ShaftElement) : shaftEntry s "idr" = some (.num s.idr) := by
  simp [shaftEntry, shaftParams, shaftAttrs, Dict.get?, wr, Val.isNull, Toml.value]

theorem se_odr (s : ShaftElement) : shaftEntry s "odr" = some (.num s.odr) := by
  simp [shaftEntry, shaftParams, shaftAttrs, Dict.get?, wr, Val.isNull, Toml.value]

theorem se_axial_force (s : ShaftElement) : shaftEntry s "axial_force" = some (.num s.axial_force) := by
  simp [shaftEntry, shaftParams, shaftAttrs, Dict.get?, wr, Val.isNull, Toml.value]

theorem se_torque (s : ShaftElement) : shaftEntry s "torque" = some (.num s.torque) := by
  simp [shaftEntry, shaftParams, shaftAttrs, Dict.get?, wr, Val.isNull, Toml.value]

theorem se_shear_effects (s : ShaftElement) : shaftEntry s "shear_effects" = some (.bool s.shear_effects) := by
  simp [shaftEntry, shaftParams, shaftAttrs, Dict.get?, wr, Val.isNull, Toml.value]

theorem se_rotary_inertia (s : ShaftElement) : shaftEntry s "rotary_inertia" = some (.bool s.rotary_inertia) := by
  simp [shaftEntry, shaftParams, shaftAttrs, Dict.get?, wr, Val.isNull, Toml.value]

theorem se_gyroscopic (s : ShaftElement) : shaftEntry s "gyroscopic" = some (.bool s.gyroscopic) := by
  simp [shaftEntry, shaftParams, shaftAttrs, Dict.get?, wr, Val.isNull, Toml.value]

theorem se_shear_method_calc (s : ShaftElement) : shaftEntry s "shear_method_calc" = some (.str s.shear_method_calc) := by
  simp [shaftEntry, shaftParams, shaftAttrs, Dict.get?, wr, Val.isNull, Toml.value]

theorem se_alpha (s : ShaftElement) : shaftEntry s "alpha" = some (.num s.alpha) := by
  simp [shaftEntry, shaftParams, shaftAttrs, Dict.get?, wr, Val.isNull, Toml.value]

theorem se_beta (s : ShaftElement) : shaftEntry s "beta" = some (.num s.beta) := by
  simp [shaftEntry, shaftParams, shaftAttrs, Dict.get?, wr, Val.isNull, Toml.value]

theorem se_material (s : ShaftElement) : shaftEntry s "material" = some (.tab (materialTable s.material)) := by
  simp [shaftEntry, shaftParams, shaftAttrs, Dict.get?, wr, Val.isNull, Toml.value, materialTable]

theorem se_n (s : ShaftElement) : shaftEntry s "n" = s.n.map Val.int := by
  cases h : s.n <;>
  simp [shaftEntry, shaftParams, shaftAttrs, Dict.get?, wr, Val.isNull, Toml.value, h, Val.ofInt?]

theorem se_tag (s : ShaftElement) : shaftEntry s "tag" = s.tag.map Val.str := by
  cases h : s.tag <;>
  simp [shaftEntry, shaftParams, shaftAttrs, Dict.get?, wr, Val.isNull, Toml.value, h, Val.ofStr?]

theorem opt_int {T : Table} {k : String} {n : Option ℕ} (h : T.get? k = n.map Val.int) :
    opt asInt T k = .ok n := by
  rw [opt, h]; cases n <;> rfl

theorem opt_str {T : Table} {k : String} {n : Option String} (h : T.get? k = n.map Val.str) :
    opt asStr T k = .ok n := by
  rw [opt, h]; cases n <;> rfl

theorem opt_arr {T : Table} {k : String} {n : Option (List ℝ)} (h : T.get? k = n.map Val.arr) :
    opt asArr T k = .ok n := by
  rw [opt, h]; cases n <;> rfl

theorem opt_num {T : Table} {k : String} {n : Option ℝ} (h : T.get? k = n.map Val.num) :
    opt asNum T k = .ok n := by
  rw [opt, h]; cases n <;> rfl

theorem shaft_all (s : ShaftElement) : ∀ p ∈ shaftParams, ((shaftAttrs s).get? p).isSome := by
  intro p hp
  rw [← Dict.mem_keys_iff]
  exact hp

theorem shaftData_of {s : ShaftElement} {t : Table}
    (ht : collect .attributeError (shaftAttrs s) shaftParams = .ok t) :
    shaftData s = .ok (t.set "material" (.tab (materialTable s.material))) := by
  unfold shaftData
  rw [ht]
  rfl

theorem shaft_table (s : ShaftElement) : ∃ t, shaftData s = .ok t ∧
    checkKeys shaftParams (Toml.table t) = .ok () ∧
    ∀ k, (Toml.table t).get? k = shaftEntry s k := by
  obtain ⟨t, ht⟩ := collect_ok (err := .attributeError) (attrs := shaftAttrs s)
    (params := shaftParams) (shaft_all s)
  refine ⟨t.set "material" (.tab (materialTable s.material)),
    shaftData_of ht, ?_, ?_⟩
  · refine checkKeys_ok fun k hk => ?_
    have := table_mem hk
    rw [Dict.mem_keys_set] at this
    rcases this with rfl | h
    · simp [shaftParams]
    · exact collect_keys ht h
  · intro k
    rw [table_get (Dict.nodup_set _ _ _ (collect_get ht).2), Dict.get?_set, (collect_get ht).1 k]
    rfl

theorem shaft_read {s : ShaftElement} (hm : callMaterial (materialTable s.material) = .ok s.material)
    (hi : ShaftElement.init s.L s.idl s.odl (some s.idr) (some s.odr) (some s.material) s.n
      s.axial_force s.torque s.shear_effects s.rotary_inertia s.gyroscopic s.shear_method_calc s.tag
      s.alpha s.beta = .ok s) :
    ∃ t, shaftData s = .ok t ∧ callShaft (Toml.table t) = .ok s := by
  obtain ⟨t, ht, hk, hg⟩ := shaft_table s
  refine ⟨t, ht, ?_⟩
  generalize Toml.table t = T at hk hg
  have hn : opt asInt T "n" = .ok s.n := opt_int (by rw [hg, se_n])
  have htag : opt asStr T "tag" = .ok s.tag := opt_str (by rw [hg, se_tag])
  simp only [callShaft, hk, hn, htag]
  simp only [req, dflt, opt, hg, se_L, se_idl, se_odl, se_idr, se_odr, se_axial_force, se_torque,
    se_shear_effects, se_rotary_inertia, se_gyroscopic, se_shear_method_calc, se_alpha, se_beta,
    se_material, asNum, asBool, asStr, bind, Except.bind, pure, Except.pure, hm, hi]

theorem brg_all (b : BearingElement) :
    ∀ p ∈ brgParams ++ coefNames, ((brgAttrs b).get? p).isSome := by
  intro p hp
  rw [← Dict.mem_keys_iff]
  revert p
  change ∀ p ∈ brgParams ++ coefNames, p ∈ ["frequency", "kxx", "kyy", "kxy", "kyx", "cxx", "cyy",
    "cxy", "cyx", "mxx", "myy", "mxy", "myx", "n", "n_link", "tag", "color", "scale_factor"]
  decide

/-- What a reader finds under the key `k` in the table of a bearing. -/
def brgEntry (b : BearingElement) (k : String) : Option Val := wr ((brgAttrs b).get? k)

theorem be_kxx (b : BearingElement) : brgEntry b "kxx" = some (.arr b.kxx.values) := by
  simp [brgEntry, brgAttrs, Dict.get?, wr, Val.isNull, Toml.value]

theorem be_kyy (b : BearingElement) : brgEntry b "kyy" = some (.arr b.kyy.values) := by
  simp [brgEntry, brgAttrs, Dict.get?, wr, Val.isNull, Toml.value]

theorem be_kxy (b : BearingElement) : brgEntry b "kxy" = some (.arr b.kxy.values) := by
  simp [brgEntry, brgAttrs, Dict.get?, wr, Val.isNull, Toml.value]

theorem be_kyx (b : BearingElement) : brgEntry b "kyx" = some (.arr b.kyx.values) := by
  simp [brgEntry, brgAttrs, Dict.get?, wr, Val.isNull, Toml.value]

theorem be_cxx (b : BearingElement) : brgEntry b "cxx" = some (.arr b.cxx.values) := by
  simp [brgEntry, brgAttrs, Dict.get?, wr, Val.isNull, Toml.value]

theorem be_cyy (b : BearingElement) : brgEntry b "cyy" = some (.arr b.cyy.values) := by
  simp [brgEntry, brgAttrs, Dict.get?, wr, Val.isNull, Toml.value]

theorem be_cxy (b : BearingElement) : brgEntry b "cxy" = some (.arr b.cxy.values) := by
  simp [brgEntry, brgAttrs, Dict.get?, wr, Val.isNull, Toml.value]

theorem be_cyx (b : BearingElement) : brgEntry b "cyx" = some (.arr b.cyx.values) := by
  simp [brgEntry, brgAttrs, Dict.get?, wr, Val.isNull, Toml.value]

theorem be_mxx (b : BearingElement) : brgEntry b "mxx" = some (.arr b.mxx.values) := by
  simp [brgEntry, brgAttrs, Dict.get?, wr, Val.isNull, Toml.value]

theorem be_myy (b : BearingElement) : brgEntry b "myy" = some (.arr b.myy.values) := by
  simp [brgEntry, brgAttrs, Dict.get?, wr, Val.isNull, Toml.value]

theorem be_mxy (b : BearingElement) : brgEntry b "mxy" = some (.arr b.mxy.values) := by
  simp [brgEntry, brgAttrs, Dict.get?, wr, Val.isNull, Toml.value]

theorem be_myx (b : BearingElement) : brgEntry b "myx" = some (.arr b.myx.values) := by
  simp [brgEntry, brgAttrs, Dict.get?, wr, Val.isNull, Toml.value]

theorem be_n (b : BearingElement) : brgEntry b "n" = some (.int b.n) := by
  simp [brgEntry, brgAttrs, Dict.get?, wr, Val.isNull, Toml.value]

theorem be_scale_factor (b : BearingElement) : brgEntry b "scale_factor" = some (.num b.scale_factor) := by
  simp [brgEntry, brgAttrs, Dict.get?, wr, Val.isNull, Toml.value]

theorem be_color (b : BearingElement) : brgEntry b "color" = some (.str b.color) := by
  simp [brgEntry, brgAttrs, Dict.get?, wr, Val.isNull, Toml.value]

theorem be_n_link (b : BearingElement) : brgEntry b "n_link" = b.n_link.map Val.int := by
  cases h : b.n_link <;>
  simp [brgEntry, brgAttrs, Dict.get?, wr, Val.isNull, Toml.value, h, Val.ofInt?]

theorem be_tag (b : BearingElement) : brgEntry b "tag" = b.tag.map Val.str := by
  cases h : b.tag <;>
  simp [brgEntry, brgAttrs, Dict.get?, wr, Val.isNull, Toml.value, h, Val.ofStr?]

theorem be_frequency (b : BearingElement) : brgEntry b "frequency" = b.frequency.map Val.arr := by
  cases h : b.frequency <;>
  simp [brgEntry, brgAttrs, Dict.get?, wr, Val.isNull, Toml.value, h, Val.ofArr?]

/-- The arguments that a saved bearing is rebuilt from. -/
def argsOf (b : BearingElement) : BearingArgs where
  n := b.n
  kxx := .list b.kxx.values
  cxx := .list b.cxx.values
  mxx := some (.list b.mxx.values)
  kyy := some (.list b.kyy.values)
  kxy := .list b.kxy.values
  kyx := .list b.kyx.values
  cyy := some (.list b.cyy.values)
  cxy := .list b.cxy.values
  cyx := .list b.cyx.values
  myy := some (.list b.myy.values)
  mxy := .list b.mxy.values
  myx := .list b.myx.values
  frequency := b.frequency
  tag := b.tag
  n_link := b.n_link
  scale_factor := b.scale_factor
  color := b.color

theorem brgArgs_eq {T : Table} {b : BearingElement}
    (hg : ∀ k ∈ brgParams, T.get? k = brgEntry b k) (colour : String) :
    brgArgs T colour = .ok (argsOf b) := by
  simp only [brgParams, List.mem_cons, List.not_mem_nil, or_false, forall_eq_or_imp,
    forall_eq] at hg
  obtain ⟨g1, g2, g3, g4, g5, g6, g7, g8, g9, g10, g11, g12, g13, g14, g15, g16, g17, g18⟩ := hg
  rw [be_frequency] at g14
  rw [be_tag] at g15
  rw [be_n_link] at g16
  simp only [brgArgs, opt_arr g14, opt_str g15, opt_int g16]
  simp only [req, dflt, opt, g1, g2, g3, g4, g5, g6, g7, g8, g9, g10, g11, g12, g13, g17, g18,
    be_kxx, be_kyy, be_kxy, be_kyx, be_cxx, be_cyy, be_cxy, be_cyx, be_mxx, be_myy, be_mxy, be_myx,
    be_n, be_scale_factor, be_color, asInt, asCoef, asNum, asStr, bind, Except.bind, pure,
    Except.pure, argsOf]

theorem process_again {sp : Scipy} {f : Option (List ℝ)} {c : Coef} {x : Coeff}
    (h : Coeff.process sp f c = .ok x) : Coeff.process sp f (.list x.values) = .ok x := by
  unfold Coeff.process at h
  have key : ∀ l, Coeff.interpolate sp f l = .ok x → Coeff.interpolate sp f x.values = .ok x := by
    intro l hl
    rw [interpolate_values hl]
    exact hl
  cases c with
  | list l => exact key l h
  | scalar y =>
    cases f with
    | none => exact key _ h
    | some f => exact key _ h

theorem brg_again {sp : Scipy} {a : BearingArgs} {b : BearingElement}
    (h : BearingElement.init sp a = .ok b) (tag : Option String) (sf : ℝ) :
    BearingElement.init sp { argsOf b with tag := tag, scale_factor := sf } =
      .ok { b with tag := tag, scale_factor := sf } := by
  obtain ⟨-, -, hf, -, -, -, hc⟩ := init_ok h
  simp only [List.mem_cons, List.not_mem_nil, or_false, forall_eq_or_imp, forall_eq] at hc
  obtain ⟨⟨h1, l1⟩, ⟨h2, l2⟩, ⟨h3, l3⟩, ⟨h4, l4⟩, ⟨h5, l5⟩, ⟨h6, l6⟩, ⟨h7, l7⟩, ⟨h8, l8⟩, ⟨h9, l9⟩,
    ⟨h10, l10⟩, ⟨h11, l11⟩, ⟨h12, l12⟩⟩ := hc
  rw [← hf] at h1 h2 h3 h4 h5 h6 h7 h8 h9 h10 h11 h12 l1 l2 l3 l4 l5 l6 l7 l8 l9 l10 l11 l12
  unfold BearingElement.init
  simp only [bind_ok]
  refine ⟨b.kxx, process_again h1, b.kyy, process_again h2, b.kxy, process_again h3, b.kyx,
    process_again h4, b.cxx, process_again h5, b.cyy, process_again h6, b.cxy, process_again h7,
    b.cyx, process_again h8, b.mxx, process_again h9, b.myy, process_again h10, b.mxy,
    process_again h11, b.myx, process_again h12, ?_⟩
  rw [if_pos]
  · rfl
  · generalize he : ({ argsOf b with tag := tag, scale_factor := sf } : BearingArgs).frequency = fr
    have he' : b.frequency = fr := he
    rw [he'] at l1 l2 l3 l4 l5 l6 l7 l8 l9 l10 l11 l12
    cases fr <;> simpa [reqLen] using ⟨l1, l2, l3, l4, l5, l6, l7, l8, l9, l10, l11, l12⟩

theorem get_append (d e : Table) (k : String) :
    Dict.get? (d ++ e) k = (d.get? k).or (Dict.get? e k) := by
  induction d with
  | nil => simp [Dict.get?]
  | cons kv d ih =>
    obtain ⟨a, v⟩ := kv
    by_cases h : a = k
    · simp [Dict.get?, h]
    · simpa [Dict.get?, h] using ih

theorem attrs_append (b : BearingElement) (e : Table) {k : String} (hk : k ∈ brgParams) :
    Dict.get? (brgAttrs b ++ e) k = (brgAttrs b).get? k := by
  rw [get_append]
  obtain ⟨v, hv⟩ := Option.isSome_iff_exists.1 (brg_all b k (List.mem_append_left _ hk))
  rw [hv]; rfl

theorem brg_roundtrip {sp : Scipy} {a : BearingArgs} {b : BearingElement}
    (h : BearingElement.init sp a = .ok b) :
    ∃ t, data (.brg (.brg false b)) = .ok t ∧ callBrg sp (Toml.table t) = .ok b := by
  obtain ⟨t, ht⟩ := collect_ok (err := .keyError) (brg_all b)
  refine ⟨t, ht, ?_⟩
  unfold callBrg
  rw [brgArgs_eq (b := b) (fun k hk => by
    rw [collect_read ht k, if_pos (List.mem_append_left _ hk)]; rfl)]
  exact brg_again h b.tag b.scale_factor

theorem seal_all (b : BearingElement) :
    ∀ p ∈ sealParams ++ coefNames, ((sealAttrs b).get? p).isSome := by
  intro p hp
  rw [← Dict.mem_keys_iff]
  revert p
  change ∀ p ∈ sealParams ++ coefNames, p ∈ ["frequency", "kxx", "kyy", "kxy", "kyx", "cxx", "cyy",
    "cxy", "cyx", "mxx", "myy", "mxy", "myx", "n", "n_link", "tag", "color", "scale_factor",
    "seal_leakage"]
  decide

theorem seal_roundtrip {sp : Scipy} {a : BearingArgs} {b : BearingElement}
    (h : sealInit sp a = .ok b) :
    ∃ t, data (.brg (.brg true b)) = .ok t ∧
      callSeal sp (Toml.table t) = .ok { b with scale_factor := b.scale_factor / 2 } := by
  obtain ⟨t, ht⟩ := collect_ok (err := .keyError) (seal_all b)
  refine ⟨t, ht, ?_⟩
  unfold callSeal
  have hsub : ∀ k ∈ brgParams, k ∈ sealParams := by decide
  rw [brgArgs_eq (b := b) (fun k hk => by
    rw [collect_read ht k, if_pos (List.mem_append_left _ (hsub k hk)), sealAttrs,
      attrs_append b _ hk]; rfl)]
  exact brg_again h b.tag (b.scale_factor / 2)

theorem brg6_all (b : BearingElement6DoF) :
    ∀ p ∈ brg6Params ++ coefNames, ((brg6Attrs b).get? p).isSome := by
  intro p hp
  rw [← Dict.mem_keys_iff]
  revert p
  change ∀ p ∈ brg6Params ++ coefNames, p ∈ ["frequency", "kxx", "kyy", "kxy", "kyx", "cxx", "cyy",
    "cxy", "cyx", "mxx", "myy", "mxy", "myx", "n", "n_link", "tag", "color", "scale_factor",
    "kzz", "czz", "mzz"]
  decide

theorem brg6_roundtrip {sp : Scipy} {a : BearingArgs} {kzz czz mzz : Coef} {b : BearingElement6DoF}
    (h : BearingElement6DoF.init sp a kzz czz mzz = .ok b) :
    ∃ t, data (.brg (.brg6 b)) = .ok t ∧ callBrg6 sp (Toml.table t) = .ok b := by
  obtain ⟨t, ht⟩ := collect_ok (err := .keyError) (brg6_all b)
  refine ⟨t, ht, ?_⟩
  have hsub : ∀ k ∈ brgParams, k ∈ brg6Params := by decide
  have hco : ∀ k ∈ brg6Params ++ coefNames, k ∈ brg6Params := by decide
  have hk : checkKeys brg6Params (Toml.table t) = .ok () :=
    checkKeys_ok fun k hk => hco k (collect_keys ht (table_mem hk))
  have hz : ∀ k ∈ ["kzz", "czz", "mzz"], (brgAttrs b.base).get? k = none := by
    intro k hk
    simp only [List.mem_cons, List.not_mem_nil, or_false] at hk
    rcases hk with rfl | rfl | rfl <;> simp [brgAttrs, Dict.get?]
  have e1 : (Toml.table t).get? "kzz" = some (.arr b.kzz.values) := by
    rw [collect_read ht, if_pos (by decide), brg6Attrs, get_append, hz _ (by simp)]
    simp [Dict.get?, wr, Val.isNull, Toml.value]
  have e2 : (Toml.table t).get? "czz" = some (.arr b.czz.values) := by
    rw [collect_read ht, if_pos (by decide), brg6Attrs, get_append, hz _ (by simp)]
    simp [Dict.get?, wr, Val.isNull, Toml.value]
  have e3 : (Toml.table t).get? "mzz" = some (.arr b.mzz.values) := by
    rw [collect_read ht, if_pos (by decide), brg6Attrs, get_append, hz _ (by simp)]
    simp [Dict.get?, wr, Val.isNull, Toml.value]
  have ha := brgArgs_eq (T := Toml.table t) (b := b.base) (fun k hk => by
    rw [collect_read ht k, if_pos (List.mem_append_left _ (hsub k hk)), brg6Attrs,
      attrs_append b.base _ hk]; rfl) "#355d7a"
  unfold BearingElement6DoF.init at h
  simp only [bind_ok] at h
  obtain ⟨b₀, h0, x1, h1, x2, h2, x3, h3, h4⟩ := h
  simp only [pure, Except.pure, Except.ok.injEq] at h4
  subst h4
  have hf : b₀.frequency = a.frequency := (init_ok h0).2.2.1
  rw [← hf] at h1 h2 h3
  simp only [callBrg6, hk, ha, dflt, e1, e2, e3, asCoef]
  change BearingElement6DoF.init sp (argsOf b₀) (.list x1.values) (.list x2.values)
    (.list x3.values) = _
  unfold BearingElement6DoF.init
  simp only [bind_ok]
  exact ⟨b₀, brg_again h0 b₀.tag b₀.scale_factor, x1, process_again h1, x2, process_again h2, x3,
    process_again h3, rfl⟩

open Spec in
theorem shaft_roundtrip {s : ShaftElement} (h : MadeShaft s) :
    ∃ t, shaftData s = .ok t ∧ callShaft (Toml.table t) = .ok s := by
  obtain ⟨L, idl, odl, idr, odr, mat, n, af, tq, sh, ro, gy, me, tag, al, be, hm, hi⟩ := h
  obtain ⟨e1, e2, e3⟩ := shaft_init_inv hi s.n s.tag
  obtain ⟨name, rho, E, G, P, col, hm⟩ := hm
  cases e1
  exact shaft_read (material_roundtrip hm e2) e3

theorem classOf_eq (e : Elm) : Spec.classOf e = className e := by
  rcases e with ⟨b, s⟩ | ⟨b, d⟩ | (⟨b, x⟩ | x) | (p | p) <;> (try cases b) <;> rfl

open Spec in
/-- The data of a plain element, written and read back, gives the element. -/
theorem data_roundtrip {sp : Scipy} {e : Elm} (h : Constructed sp e) (hp : Faithful e) :
    ∃ t, data e = .ok t ∧ readData sp (className e) (Toml.table t) = .ok e := by
  rcases e with ⟨six, s⟩ | ⟨six, d⟩ | (⟨sl, b⟩ | b) | (p | p)
  · obtain ⟨t, h1, h2⟩ := shaft_roundtrip h
    refine ⟨t, h1, ?_⟩
    cases six <;> simp [readData, className, h2, Except.map]
  · obtain ⟨t, h1, h2⟩ := disk_roundtrip d
    refine ⟨t, h1, ?_⟩
    cases six <;> simp [readData, className, h2, Except.map]
  · cases sl with
    | true => cases hp
    | false =>
      obtain ⟨a, ha⟩ := h
      obtain ⟨t, h1, h2⟩ := brg_roundtrip ha
      refine ⟨t, h1, ?_⟩
      simp [readData, className, h2, Except.map]
  · obtain ⟨a, kzz, czz, mzz, ha⟩ := h
    obtain ⟨t, h1, h2⟩ := brg6_roundtrip ha
    refine ⟨t, h1, ?_⟩
    simp [readData, className, h2, Except.map]
  · obtain ⟨t, h1, h2⟩ := pm_roundtrip p
    refine ⟨t, h1, ?_⟩
    simp [readData, className, h2, Except.map]
  · cases hp

end Ross.PersistLemmas
