import Verif.Model.Convergence
import Verif.Spec.Convergence
import Verif.Lemmas.StaticRuns

/-! # Lemmas about `Rotor.convergence` -/

namespace Ross.ConvLemmas

open Ross Ross.Spec Ross.RotorLemmas Ross.BearingLemmas Ross.StaticLemmas Ross.ShaftLemmas Ross.Props Ross.AssemblyLemmas
  Ross.Shaft6Lemmas Rotor

/-! ### Splitting an element -/

/-- Attributes of an element built by the constructor call of the loop. -/
theorem init_attrs {L a b c d f t al be : ℝ} {m : Option Material} {n : Option ℕ} {se ri gy : Bool}
    {me : String} {tag : Option String} {s : ShaftElement}
    (h : ShaftElement.init L a b (some c) (some d) m n f t se ri gy me tag al be = .ok s) :
    s.L = L ∧ s.idl = a ∧ s.odl = b ∧ s.idr = c ∧ s.odr = d ∧ some s.material = m ∧ s.n = n ∧
      s.axial_force = f ∧ s.torque = t ∧ s.shear_effects = se ∧ s.rotary_inertia = ri ∧
      s.gyroscopic = gy ∧ s.shear_method_calc = me ∧ s.tag = tag ∧ s.alpha = al ∧ s.beta = be := by
  unfold ShaftElement.init at h
  split at h
  · simp at h
  · simp only at h
    split_ifs at h <;>
    · simp only [Except.ok.injEq] at h
      subst h
      simp

/-- The loop variables in the passes of the inner loop. -/
noncomputable def endsAt (nel_r : ℕ) (e : Ends) : ℕ → Ends
  | 0 => e.step nel_r 0
  | j + 1 => (endsAt nel_r e j).step nel_r (j + 1)

/-- The constructor call of pass `j`. -/
noncomputable def piece (s : ShaftElement) (le : ℝ) (e : Ends) : Res ShaftElement :=
  ShaftElement.init le e.idl e.odl (some e.idr) (some e.odr) (some s.material) none 0 0
    s.shear_effects s.rotary_inertia s.gyroscopic "cowper" none 0 0

theorem splitFrom_iff (s : ShaftElement) (nel : ℕ) (le : ℝ) : ∀ (k j : ℕ) (e : Ends) (f : ℕ → Ends)
    (l : List ShaftElement), f 0 = e.step nel j → (∀ i, f (i + 1) = (f i).step nel (j + i + 1)) →
    (splitFrom s nel le k j e = .ok l ↔
      l.length = k ∧ ∀ i (h : i < l.length), piece s le (f i) = .ok l[i])
  | 0, j, e, f, l, h0, hs => by
    unfold splitFrom
    constructor
    · intro h; cases h; simp
    · rintro ⟨h, -⟩
      rw [List.length_eq_zero_iff.1 h]
  | k + 1, j, e, f, l, h0, hs => by
    unfold splitFrom
    constructor
    · intro h
      obtain ⟨x, hx, h⟩ := bind_ok.1 h
      obtain ⟨t, ht, h⟩ := bind_ok.1 h
      cases h
      obtain ⟨h1, h2⟩ := (splitFrom_iff s nel le k (j + 1) (e.step nel j) (fun i => f (i + 1)) t
        (by rw [hs, h0]) (fun i => by rw [hs]; congr 1 <;> omega)).1 ht
      refine ⟨by simp [h1], fun i hi => ?_⟩
      cases i with
      | zero => rw [h0]; exact hx
      | succ i => exact h2 i (by simpa using hi)
    · rintro ⟨h1, h2⟩
      cases l with
      | nil => simp at h1
      | cons x t =>
        refine bind_ok.2 ⟨x, ?_, bind_ok.2 ⟨t, ?_, rfl⟩⟩
        · have := h2 0 (by simp)
          rw [h0] at this
          exact this
        · refine (splitFrom_iff s nel le k (j + 1) (e.step nel j) (fun i => f (i + 1)) t
            (by rw [hs, h0]) (fun i => by rw [hs]; congr 1 <;> omega)).2
            ⟨by simpa using h1, fun i hi => ?_⟩
          have := h2 (i + 1) (by simpa using hi)
          exact this

theorem splitElem_iff (nel : ℕ) (e : ShaftEl) (l : List ShaftElement) :
    splitElem nel e = .ok l ↔ l.length = nel ∧ ∀ i (h : i < l.length),
      piece e.s (e.s.L / nel) (endsAt nel ⟨e.s.idl, e.s.odl, e.s.idr, e.s.odr⟩ i) = .ok l[i] :=
  splitFrom_iff _ _ _ _ _ _ _ _ rfl fun i => by
    show (endsAt nel _ i).step nel (i + 1) = _
    rw [Nat.zero_add]

/-- For a cylinder the loop variables do not change. -/
theorem endsAt_cyl {nel : ℕ} (hn : nel ≠ 0) {e : Ends} (hi : e.idl = e.idr) (ho : e.odl = e.odr) :
    ∀ j, endsAt nel e j = e := by
  have hn' : (nel : ℝ) ≠ 0 := by exact_mod_cast hn
  have step : ∀ j : ℕ, e.step nel j = e := by
    intro j
    obtain ⟨a, b, c, d⟩ := e
    simp only at hi ho
    subst hi ho
    unfold Ends.step
    have h1 : ∀ x : ℝ, (((nel : ℝ) - j - 1) * x + (j + 1) * x) / nel = x := by
      intro x; field_simp; ring
    have h2 : ∀ x : ℝ, (((nel : ℝ) - j) * x + j * x) / nel = x := by
      intro x; field_simp; ring
    simp only [h1, h2]
  intro j
  induction j with
  | zero => exact step 0
  | succ j ih =>
    show (endsAt nel e j).step nel (j + 1) = e
    rw [ih]; exact step _

/-! ### The refined shaft -/

/-- Nodes are numbered in the order of the list. -/
theorem sort_numbered {l : List ShaftEl} (h : ∀ e ∈ l, e.s.n = none) :
    sortShaft (numberShaft l) = numberShaft l := by
  unfold sortShaft
  apply List.mergeSort_of_pairwise
  rw [List.pairwise_iff_getElem]
  intro i j hi hj hij
  have hi' : i < l.length := by simpa [numberShaft] using hi
  have hj' : j < l.length := by simpa [numberShaft] using hj
  simp only [numberShaft, List.getElem_mapIdx, nodeOf, h _ (List.getElem_mem hi'),
    h _ (List.getElem_mem hj'), Option.getD_none, Option.getD_some, decide_eq_true_eq]
  omega

/-- Positions of a shaft whose elements follow one another. -/
theorem position_chain {sh : List ShaftEl} (h : sh.map leftNode = List.range sh.length) (g : ℕ) :
    position sh g = ((sh.map fun e => e.s.L).take g).sum := by
  have hget : ∀ i (hi : i < sh.length), leftNode sh[i] = i := by
    intro i hi
    have := congrArg (fun l => l[i]?) h
    simp only [List.getElem?_map, List.getElem?_eq_getElem hi, List.getElem?_range hi,
      Option.map_some, Option.some.injEq] at this
    exact this
  have hlay : ∀ i (hi : i < sh.length), layerLength sh i = sh[i].s.L := by
    intro i hi
    unfold layerLength
    have : sh.find? (fun e => decide (leftNode e = i)) = some sh[i] := by
      rw [List.find?_eq_some_iff_getElem]
      refine ⟨by simpa using hget i hi, i, hi, rfl, fun j hj => ?_⟩
      have := hget j (by omega)
      simp [this]; omega
    rw [this]; rfl
  have hnodes : leftNodes sh = Finset.range sh.length := by
    unfold leftNodes; rw [h]; ext; simp
  unfold position
  rw [hnodes]
  have hfilter : (Finset.range sh.length).filter (fun x => x < g) = Finset.range (min g sh.length) := by
    ext x; simp; omega
  rw [hfilter]
  have hsum : ∀ k ≤ sh.length, ∑ x ∈ Finset.range k, layerLength sh x =
      ((sh.map fun e => e.s.L).take k).sum := by
    intro k hk
    induction k with
    | zero => simp
    | succ k ih =>
      rw [Finset.sum_range_succ, ih (by omega), hlay k (by omega)]
      rw [List.take_add_one, List.sum_append, List.getElem?_map, List.getElem?_eq_getElem (by omega)]
      simp
  rw [hsum _ (min_le_right _ _)]
  rcases le_total g sh.length with hg | hg
  · rw [min_eq_left hg]
  · rw [min_eq_right hg, List.take_of_length_le (by simp), List.take_of_length_le (by simpa using hg)]

theorem chain_succ {sh : List ShaftEl} (h : SingleLayer sh) {p : ℕ} (hp : p < sh.length) :
    position sh (p + 1) = position sh p + sh[p].s.L := by
  rw [position_chain h, position_chain h, List.take_add_one, List.sum_append, List.getElem?_map,
    List.getElem?_eq_getElem hp]
  simp

theorem chain_zero {sh : List ShaftEl} (h : SingleLayer sh) : position sh 0 = 0 := by
  rw [position_chain h]; simp

theorem chain_numbered {l : List ShaftEl} (h : ∀ e ∈ l, e.s.n = none) : SingleLayer (numberShaft l) := by
  refine List.ext_getElem (by simp [numberShaft]) fun i hi hj => ?_
  have hi' : i < l.length := by simpa [numberShaft] using hi
  simp [numberShaft, leftNode, h _ (List.getElem_mem hi')]

theorem flatten_length {α : Type} {k : ℕ} : ∀ {L : List (List α)}, (∀ l ∈ L, l.length = k) →
    L.flatten.length = k * L.length
  | [], _ => by simp
  | a :: t, h => by
    rw [List.flatten_cons, List.length_append, flatten_length fun l hl => h l (by simp [hl]),
      h a (by simp), List.length_cons]
    ring

theorem flatten_get {α : Type} {k : ℕ} : ∀ {L : List (List α)}, (∀ l ∈ L, l.length = k) →
    ∀ {i j : ℕ} (hi : i < L.length) (hj : j < k), L.flatten[k * i + j]? = L[i][j]?
  | [], _, i, _, hi, _ => by simp at hi
  | a :: t, h, 0, j, _, hj => by
    have ha := h a (by simp)
    rw [List.flatten_cons, List.getElem?_append_left (by simpa [ha] using hj)]
    simp
  | a :: t, h, i + 1, j, hi, hj => by
    have ha := h a (by simp)
    rw [List.flatten_cons, List.getElem?_append_right (by rw [ha]; nlinarith), ha,
      show k * (i + 1) + j - k = k * i + j by rw [Nat.mul_succ]; omega,
      flatten_get (fun l hl => h l (by simp [hl])) (by simpa using hi) hj]
    simp

theorem refine_iff {r : Rotor} {k : ℕ} {b : RotorArgs} : r.refine k = .ok b ↔
    ∃ L : List (List ShaftElement), r.shaft.mapM (splitElem k) = .ok L ∧
      b = { shaft := L.flatten.map fun s => Nest.el ⟨false, s⟩
            disks := r.disks.map (scaleDisk k)
            bearings := r.bearings.map (scaleBrg k) } := by
  unfold refine
  constructor
  · intro h
    obtain ⟨L, hL, h⟩ := bind_ok.1 h
    cases h
    exact ⟨L, hL, rfl⟩
  · rintro ⟨L, hL, rfl⟩
    exact bind_ok.2 ⟨L, hL, rfl⟩

theorem flatten_nest (l : List ShaftElement) :
    Nest.flattenAll (l.map fun s => Nest.el ⟨false, s⟩) = l.map fun s => (⟨false, s⟩ : ShaftEl) := by
  induction l with
  | nil => rfl
  | cons e t ih => simp [Nest.flattenAll, Nest.flatten, ih]

theorem mapM_get {α β : Type} {f : α → Res β} {l : List α} {m : List β} (h : l.mapM f = .ok m) :
    m.length = l.length ∧ ∀ i (hi : i < l.length) (hm : i < m.length), f l[i] = .ok m[i] := by
  have h := (mapM_ok_iff f l m).1 h
  have hl : m.length = l.length := by simpa using (congrArg List.length h).symm
  refine ⟨hl, fun i hi hm => ?_⟩
  have := congrArg (fun t => t[i]?) h
  simp only [List.getElem?_map, List.getElem?_eq_getElem hi, List.getElem?_eq_getElem hm,
    Option.map_some, Option.some.injEq] at this
  exact this

theorem piece_n {s x : ShaftElement} {le : ℝ} {e : Ends} (h : piece s le e = .ok x) : x.n = none :=
  (init_attrs h).2.2.2.2.2.2.1

/-- The shaft of a refined rotor. -/
theorem refined_shaft {pd : Pandas} {fuel k : ℕ} {r x : Rotor} {b : RotorArgs}
    (hr : r.refine k = .ok b) (hx : init pd fuel b = some (.ok x)) :
    x.shaft.length = k * r.shaft.length ∧ SingleLayer x.shaft ∧
    ∀ i (hi : i < r.shaft.length) j (_ : j < k) (hp : k * i + j < x.shaft.length),
      ∃ y, piece r.shaft[i].s (r.shaft[i].s.L / k) (endsAt k
          ⟨r.shaft[i].s.idl, r.shaft[i].s.odl, r.shaft[i].s.idr, r.shaft[i].s.odr⟩ j) = .ok y ∧
        x.shaft[k * i + j] = ⟨false, { y with
          n := some (k * i + j), tag := some ("ShaftElement " ++ toString (k * i + j)) }⟩ := by
  obtain ⟨L, hL, rfl⟩ := refine_iff.1 hr
  have hlen := (mapM_get hL).1
  have hget := (mapM_get hL).2
  have hin : ∀ l ∈ L, l.length = k := by
    intro l hl
    obtain ⟨i, hi, rfl⟩ := List.getElem_of_mem hl
    exact ((splitElem_iff _ _ _).1 (hget i (by omega) hi)).1
  have hnone : ∀ e ∈ L.flatten.map (fun s => (⟨false, s⟩ : ShaftEl)), e.s.n = none := by
    intro e he
    obtain ⟨s, hs, rfl⟩ := List.mem_map.1 he
    obtain ⟨l, hl, hs⟩ := List.mem_flatten.1 hs
    obtain ⟨i, hi, rfl⟩ := List.getElem_of_mem hl
    obtain ⟨j, hj, rfl⟩ := List.getElem_of_mem hs
    exact piece_n (((splitElem_iff _ _ _).1 (hget i (by omega) hi)).2 j hj)
  have hsh : x.shaft = numberShaft (L.flatten.map fun s => (⟨false, s⟩ : ShaftEl)) := by
    rw [(init_ok hx).shaft]
    show sortShaft (numberShaft (Nest.flattenAll _)) = _
    rw [flatten_nest, sort_numbered hnone]
  refine ⟨?_, ?_, ?_⟩
  · rw [hsh, numberShaft, List.length_mapIdx, List.length_map, flatten_length hin, hlen]
  · rw [hsh]; exact chain_numbered hnone
  · intro i hi j hj hp
    have hiL : i < L.length := by omega
    have hl := hin _ (List.getElem_mem hiL)
    refine ⟨L[i][j], ((splitElem_iff _ _ _).1 (hget i hi hiL)).2 j (by omega), ?_⟩
    have h1 := flatten_get hin hiL hj
    rw [List.getElem?_eq_getElem (by omega : j < L[i].length)] at h1
    have h2 : x.shaft[k * i + j]? = some (⟨false, { L[i][j] with
          n := some (k * i + j), tag := some ("ShaftElement " ++ toString (k * i + j)) }⟩ : ShaftEl) := by
      have hp' := ((splitElem_iff _ _ _).1 (hget i hi hiL)).2 j (by omega)
      have hat := init_attrs hp'
      rw [hsh, numberShaft, List.getElem?_mapIdx, List.getElem?_map, h1]
      simp [hat.2.2.2.2.2.2.1, hat.2.2.2.2.2.2.2.2.2.2.2.2.2.1, defTag]
    rw [List.getElem?_eq_getElem hp, Option.some_inj] at h2
    exact h2

/-- Positions of the nodes of a refined rotor. -/
theorem refined_position {pd : Pandas} {fuel k : ℕ} {r x : Rotor} {b : RotorArgs}
    (hr : r.refine k = .ok b) (hx : init pd fuel b = some (.ok x)) (hk : k ≠ 0) (i : ℕ)
    (hi : i ≤ r.shaft.length) :
    position x.shaft (k * i) = ((r.shaft.map fun e => e.s.L).take i).sum ∧
      ∀ j ≤ k, ∀ h : i < r.shaft.length, position x.shaft (k * i + j) =
        ((r.shaft.map fun e => e.s.L).take i).sum + j * (r.shaft[i].s.L / k) := by
  obtain ⟨hlen, hch, hp⟩ := refined_shaft hr hx
  have hk' : (k : ℝ) ≠ 0 := by exact_mod_cast hk
  have inner : ∀ i (h : i < r.shaft.length),
      position x.shaft (k * i) = ((r.shaft.map fun e => e.s.L).take i).sum → ∀ j ≤ k,
      position x.shaft (k * i + j) =
        ((r.shaft.map fun e => e.s.L).take i).sum + j * (r.shaft[i].s.L / k) := by
    intro i h h0 j hj
    induction j with
    | zero => simp [h0]
    | succ j ih =>
      have hb : k * i + j < x.shaft.length := by
        rw [hlen]
        have : k * (i + 1) ≤ k * r.shaft.length := Nat.mul_le_mul_left _ h
        rw [Nat.mul_succ] at this; omega
      rw [← Nat.add_assoc, chain_succ hch hb, ih (by omega)]
      obtain ⟨y, hy, he⟩ := hp i h j (by omega) hb
      rw [he]
      show _ + y.L = _
      rw [(init_attrs hy).1]
      push_cast; ring
  have outer : ∀ i ≤ r.shaft.length,
      position x.shaft (k * i) = ((r.shaft.map fun e => e.s.L).take i).sum := by
    intro i hi
    induction i with
    | zero => simp [chain_zero hch]
    | succ i ih =>
      have := inner i hi (ih (by omega)) k le_rfl
      rw [Nat.mul_succ, this, List.take_add_one, List.sum_append, List.getElem?_map,
        List.getElem?_eq_getElem (by omega)]
      simp
      field_simp
  exact ⟨outer i hi, fun j hj h => inner i h (outer i hi) j hj⟩

theorem refined_count {k : ℕ} {r : Rotor} {b : RotorArgs} (hr : r.refine k = .ok b) :
    b.shaft.length = k * r.shaft.length := by
  obtain ⟨L, hL, rfl⟩ := refine_iff.1 hr
  obtain ⟨hlen, hget⟩ := mapM_get hL
  have hin : ∀ l ∈ L, l.length = k := by
    intro l hl
    obtain ⟨i, hi, rfl⟩ := List.getElem_of_mem hl
    exact ((splitElem_iff _ _ _).1 (hget i (by omega) hi)).1
  show (L.flatten.map _).length = _
  rw [List.length_map, flatten_length hin, hlen]

/-! ### The loop -/

/-- One pass of the loop: the refined rotor and its natural frequency. -/
def Pass (pd : Pandas) (la : Lapack) (initFuel : ℕ) (r : Rotor) (n_eigval : ℤ) (k : ℕ) (x : Rotor)
    (w : ℝ) : Prop :=
  ∃ b, r.refine k = .ok b ∧ init pd initFuel b = some (.ok x) ∧ wnAt la x n_eigval = .ok w

theorem loop_ok {pd : Pandas} {la : Lapack} {initFuel : ℕ} {r : Rotor} {n_eigval : ℤ} {err_max : ℝ} :
    ∀ (fuel : ℕ) (arr : ConvArrays) (last : ℝ) (k : ℕ) {aux : Rotor} {res : ConvArrays},
    convLoop pd la initFuel r n_eigval err_max fuel arr last k = some (.ok (aux, res)) →
    ∃ (m : ℕ) (x : ℕ → Rotor) (w : ℕ → ℝ), w 0 = last ∧ x m = aux ∧
      (∀ i ≤ m, Pass pd la initFuel r n_eigval (k * 2 ^ i) (x i) (w (i + 1))) ∧
      res.el_num = arr.el_num ++ (List.range (m + 1)).map (fun i => k * 2 ^ i * r.shaft.length) ∧
      res.eigv_arr = arr.eigv_arr ++ (List.range (m + 1)).map (fun i => w (i + 1)) ∧
      res.error_arr = arr.error_arr ++ (List.range (m + 1)).map (fun i => 100 * |1 - w (i + 1) / w i|) ∧
      (∀ i < m, err_max < |1 - w (i + 1) / w i|) ∧ |1 - w (m + 1) / w m| ≤ err_max
  | 0, _, _, _, _, _, h => by simp [convLoop] at h
  | fuel + 1, arr, last, k, aux, res, h => by
    unfold convLoop at h
    split at h
    · simp at h
    · rename_i b hb
      split at h
      · simp at h
      · simp at h
      · rename_i y hy
        split at h
        · simp at h
        · rename_i v hv
          have hp : Pass pd la initFuel r n_eigval k y v := ⟨b, hb, hy, hv⟩
          dsimp only at h
          split_ifs at h with he
          · obtain ⟨m, x, w, h0, hm, hP, e1, e2, e3, hgt, hle⟩ := loop_ok fuel _ _ _ h
            refine ⟨m + 1, fun i => Nat.casesOn i y x, fun i => Nat.casesOn i last w, rfl, hm,
              ?_, ?_, ?_, ?_, ?_, hle⟩
            · intro i hi
              cases i with
              | zero => simpa [h0] using hp
              | succ i =>
                have := hP i (by omega)
                rw [pow_succ', ← mul_assoc]
                exact this
            · rw [e1, List.range_succ_eq_map (n := m + 1), refined_count hb]
              simp [Function.comp_def, pow_succ', mul_assoc]
            · rw [e2, List.range_succ_eq_map (n := m + 1)]
              simp [Function.comp_def, h0]
            · rw [e3, List.range_succ_eq_map (n := m + 1)]
              simp [Function.comp_def, h0]
            · intro i hi
              cases i with
              | zero => simpa [h0] using he
              | succ i => exact hgt i (by omega)
          · simp only [Option.some.injEq, Except.ok.injEq, Prod.mk.injEq] at h
            obtain ⟨rfl, rfl⟩ := h
            refine ⟨0, fun _ => y, fun i => Nat.casesOn i last fun _ => v, rfl, rfl, ?_, ?_, ?_, ?_,
              ?_, ?_⟩
            · intro i hi
              obtain rfl : i = 0 := by omega
              simpa using hp
            · simp [refined_count hb]
            · simp
            · simp
            · intro i hi; omega
            · simpa using he

/-! ### Disks and bearings -/

theorem scaleDisk_moved (k : ℕ) (e : DiskEl) : MovedDisk (k * e.d.n) e (scaleDisk k e) :=
  ⟨rfl, rfl, rfl, rfl, rfl, rfl⟩

theorem scaleBrg_moved (k : ℕ) (b : BrgEl) : MovedBrg (k * b.n) b (scaleBrg k b) := by
  cases b
  · exact ⟨rfl, rfl⟩
  · exact ⟨rfl, rfl, rfl, rfl⟩

theorem scaleBrg_n (k : ℕ) (b : BrgEl) : (scaleBrg k b).n = k * b.n := by cases b <;> rfl

theorem scaleBrg_tag (k : ℕ) (b : BrgEl) : (scaleBrg k b).tag = b.tag := by cases b <;> rfl

theorem scaleBrg_link (k : ℕ) (b : BrgEl) : (scaleBrg k b).n_link = b.n_link := by cases b <;> rfl

theorem scaleBrg_seal (k : ℕ) (b : BrgEl) : (scaleBrg k b).isSeal = b.isSeal := by cases b <;> rfl

theorem scaleBrg_six (k : ℕ) {six : Bool} (b : BrgEl) :
    BrgSix six (scaleBrg k b) ↔ BrgSix six b := by cases b <;> rfl

theorem setTag_self (b : BrgEl) : b.setTag b.tag = b := by cases b <;> rfl

theorem brg_tag_some {pd : Pandas} {fuel : ℕ} {a : RotorArgs} {r : Rotor}
    (h : init pd fuel a = some (.ok r)) {b : BrgEl} (hb : b ∈ r.bearings) : b.tag.isSome :=
  (C21_tags h).2.2.1 (.brg b) ((mem_elements (init_ok h) _).2 (.inr (.inr (.inl ⟨b, hb, rfl⟩))))

theorem disk_tag_some {pd : Pandas} {fuel : ℕ} {a : RotorArgs} {r : Rotor}
    (h : init pd fuel a = some (.ok r)) {e : DiskEl} (he : e ∈ r.disks) : e.d.tag.isSome :=
  (C21_tags h).2.2.1 (.disk e) ((mem_elements (init_ok h) _).2 (.inr (.inl ⟨e, he, rfl⟩)))

theorem refined_disks {pd pd' : Pandas} {fuel fuel' k : ℕ} {a b : RotorArgs} {r x : Rotor}
    (h : init pd fuel a = some (.ok r)) (hr : r.refine k = .ok b)
    (hx : init pd' fuel' b = some (.ok x)) : x.disks = r.disks.map (scaleDisk k) := by
  obtain ⟨L, -, rfl⟩ := refine_iff.1 hr
  rw [(init_ok hx).disks]
  show tagDisks (r.disks.map (scaleDisk k)) = _
  refine mapIdx_self _ _ fun i e he => ?_
  obtain ⟨d, hd, rfl⟩ := List.mem_map.1 he
  rw [defTag_some _ _ (t := (scaleDisk k d).d.tag) (show d.d.tag.isSome from disk_tag_some h hd)]

theorem refined_bearings {pd pd' : Pandas} {fuel fuel' k : ℕ} {a b : RotorArgs} {r x : Rotor}
    (h : init pd fuel a = some (.ok r)) (hr : r.refine k = .ok b)
    (hx : init pd' fuel' b = some (.ok x)) : x.bearings = r.bearings.map (scaleBrg k) := by
  obtain ⟨L, -, rfl⟩ := refine_iff.1 hr
  rw [(init_ok hx).bearings]
  show sortBearings (tagBearings (r.bearings.map (scaleBrg k))) = _
  have : tagBearings (r.bearings.map (scaleBrg k)) = r.bearings.map (scaleBrg k) := by
    refine mapIdx_self _ _ fun i e he => ?_
    obtain ⟨d, hd, rfl⟩ := List.mem_map.1 he
    rw [defTag_some _ _ (t := (scaleBrg k d).tag) (by rw [scaleBrg_tag]; exact brg_tag_some h hd),
      setTag_self]
  rw [this]
  apply List.mergeSort_of_pairwise
  rw [List.pairwise_map]
  have hs : r.bearings.Pairwise fun b c => b.n ≤ c.n := by
    rw [(init_ok h).bearings]
    have := List.pairwise_mergeSort (le := fun a b : BrgEl => decide (a.n ≤ b.n))
      (fun a b c h1 h2 => by simp at *; omega) (fun a b => by simp; omega) (tagBearings a.bearings)
    simpa [parts, sortBearings] using this
  refine hs.imp fun {b c} hbc => ?_
  rw [scaleBrg_n, scaleBrg_n, decide_eq_true_eq]
  exact Nat.mul_le_mul_left _ hbc

/-! ### The refined rotor is accepted -/

theorem piece_ok {s : ShaftElement} (hp : s.beam.Physical) (hi : s.idl = s.idr) (ho : s.odl = s.odr)
    {k : ℕ} (hk : k ≠ 0) (j : ℕ) :
    ∃ y, piece s (s.L / k) (endsAt k ⟨s.idl, s.odl, s.idr, s.odr⟩ j) = .ok y := by
  rw [endsAt_cyl hk hi ho]
  have hk' : (0 : ℝ) < k := by exact_mod_cast Nat.pos_of_ne_zero hk
  refine ⟨_, facts_init (s := { s with
    L := s.L / k, n := none, axial_force := 0, torque := 0, shear_method_calc := "cowper",
    tag := none, alpha := 0, beta := 0 }) (physical_facts ?_ (Or.inr rfl))⟩
  exact ⟨div_pos hp.L_pos hk', hp.idl_nonneg, hp.idl_lt, hp.idr_nonneg, hp.idr_lt, hp.rho_pos,
    hp.E_pos, hp.G_pos, hp.nu_gt⟩

theorem split_ok {e : ShaftEl} (hp : e.s.beam.Physical) (hc : Cylinder e) {k : ℕ} (hk : k ≠ 0) :
    ∃ l, splitElem k e = .ok l := by
  choose f hf using fun j => piece_ok hp hc.1 hc.2 hk j
  refine ⟨(List.range k).map f, (splitElem_iff _ _ _).2 ⟨by simp, fun i h => ?_⟩⟩
  rw [List.getElem_map, List.getElem_range]
  exact hf i

theorem refine_ok {r : Rotor} (hp : ∀ e ∈ r.shaft, e.s.beam.Physical)
    (hc : ∀ e ∈ r.shaft, Cylinder e) {k : ℕ} (hk : k ≠ 0) : ∃ b, r.refine k = .ok b := by
  obtain ⟨L, hL⟩ := mapM_ok_of (f := splitElem k) (l := r.shaft)
    fun e he => split_ok (hp e he) (hc e he) hk
  exact ⟨_, refine_iff.2 ⟨L, hL, rfl⟩⟩

theorem refine_wf {pd : Pandas} {fuel k : ℕ} {a b : RotorArgs} {r : Rotor}
    (h : init pd fuel a = some (.ok r)) (h4 : r.number_dof = 4)
    (hL : ∀ e ∈ r.shaft, 0 < e.s.L) (hd : ∀ e ∈ r.disks, e.d.n ≤ r.shaft.length)
    (hb : ∀ b ∈ r.bearings, b.n ≤ r.shaft.length) (hn : (r.bearings.map BrgEl.n).Nodup)
    (ht : ShaftTagsFree r) (hne : r.shaft ≠ []) (hk : k ≠ 0) (hr : r.refine k = .ok b) :
    WellFormed false (k * r.shaft.length) b := by
  have hbu := init_ok h
  have hlpos : 0 < r.shaft.length := List.length_pos_iff.2 hne
  obtain ⟨L, hL', rfl⟩ := refine_iff.1 hr
  obtain ⟨hlen, hget⟩ := mapM_get hL'
  have hin : ∀ l ∈ L, l.length = k := by
    intro l hl
    obtain ⟨i, hi, rfl⟩ := List.getElem_of_mem hl
    exact ((splitElem_iff _ _ _).1 (hget i (by omega) hi)).1
  have hel : ∀ s ∈ L.flatten, s.n = none ∧ s.tag = none ∧ 0 < s.L := by
    intro s hs
    obtain ⟨l, hl, hs⟩ := List.mem_flatten.1 hs
    obtain ⟨i, hi, rfl⟩ := List.getElem_of_mem hl
    obtain ⟨j, hj, rfl⟩ := List.getElem_of_mem hs
    have := init_attrs (((splitElem_iff _ _ _).1 (hget i (by omega) hi)).2 j hj)
    refine ⟨this.2.2.2.2.2.2.1, this.2.2.2.2.2.2.2.2.2.2.2.2.2.1, ?_⟩
    rw [this.1]
    exact div_pos (hL _ (List.getElem_mem _)) (by exact_mod_cast Nat.pos_of_ne_zero hk)
  have hfl : L.flatten.length = k * r.shaft.length := by rw [flatten_length hin, hlen]
  have hsl := flatten_nest L.flatten
  constructor
  · exact Nat.mul_pos (Nat.pos_of_ne_zero hk) hlpos
  · intro j
    unfold givenNodes shaftList
    dsimp only
    rw [hsl]
    have : (L.flatten.map fun s => (⟨false, s⟩ : ShaftEl)).mapIdx (fun i e => e.s.n.getD i) =
        List.range (k * r.shaft.length) := by
      apply List.ext_getElem
      · simp only [List.length_mapIdx, List.length_map, hfl, List.length_range]
      · intro i h1 h2
        simp only [List.getElem_mapIdx, List.getElem_map, List.getElem_range]
        rw [(hel _ (List.getElem_mem _)).1]; rfl
    rw [this, List.mem_range]
  · unfold shaftList; dsimp only; rw [hsl]
    intro e he
    obtain ⟨s, hs, rfl⟩ := List.mem_map.1 he
    exact (hel s hs).2.2
  · unfold shaftList; dsimp only; rw [hsl]
    intro e he
    obtain ⟨s, hs, rfl⟩ := List.mem_map.1 he
    rfl
  · intro e he
    obtain ⟨d, hd', rfl⟩ := List.mem_map.1 he
    have := disk_six h ((mem_elements hbu _).2 (.inr (.inl ⟨d, hd', rfl⟩)))
    simpa [scaleDisk, h4] using this
  · intro c hc
    obtain ⟨d, hd', rfl⟩ := List.mem_map.1 hc
    rw [scaleBrg_six]
    have := brg_six h (b := d) ((mem_elements hbu _).2 (.inr (.inr (.inl ⟨d, hd', rfl⟩))))
    cases d with
    | brg _ _ => rfl
    | brg6 _ => simp only at this; omega
  · intro e he
    obtain ⟨d, hd', rfl⟩ := List.mem_map.1 he
    exact Nat.mul_le_mul_left _ (hd d hd')
  · show ((r.bearings.map (scaleBrg k)).map BrgEl.n).Nodup
    rw [List.map_map, show BrgEl.n ∘ scaleBrg k = (fun n => k * n) ∘ BrgEl.n from
      funext fun b => scaleBrg_n k b, ← List.map_map]
    exact hn.map fun i j hij => Nat.eq_of_mul_eq_mul_left (Nat.pos_of_ne_zero hk) hij
  · intro c hc
    obtain ⟨d, hd', rfl⟩ := List.mem_map.1 hc
    left; rw [scaleBrg_n]; exact Nat.mul_le_mul_left _ (hb d hd')
  · intro c hc hlt
    obtain ⟨d, hd', rfl⟩ := List.mem_map.1 hc
    rw [scaleBrg_n] at hlt
    exact absurd (Nat.mul_le_mul_left k (hb d hd')) (by omega)
  · intro c hc c' _ hlt
    obtain ⟨d, hd', rfl⟩ := List.mem_map.1 hc
    rw [scaleBrg_n] at hlt
    exact absurd (Nat.mul_le_mul_left k (hb d hd')) (by omega)
  · intro p hp; cases hp
  · have hnd := hbu.tags
    rw [show (parts a).elements = r.elements by
      rw [elements_eq' hbu, hbu.shaft, hbu.disks, hbu.bearings, hbu.pms]; rfl, elements_eq' hbu] at hnd
    simp only [List.map_append, List.map_map] at hnd
    unfold allTags shaftList
    dsimp only
    rw [hsl, List.mapIdx_nil, List.append_nil]
    apply List.Nodup.of_map some
    have es : ((L.flatten.map fun s => (⟨false, s⟩ : ShaftEl)).mapIdx fun i e =>
        tagOr "ShaftElement " i e.s.tag) =
        (List.range (k * r.shaft.length)).map fun i => "ShaftElement " ++ toString i := by
      apply List.ext_getElem
      · simp only [List.length_mapIdx, List.length_map, hfl, List.length_range]
      · intro i h1 h2
        simp only [List.getElem_mapIdx, List.getElem_map, List.getElem_range]
        rw [(hel _ (List.getElem_mem _)).2.1]; rfl
    have ed : ((r.disks.map (scaleDisk k)).mapIdx fun i e => tagOr "Disk " i e.d.tag).map some =
        r.disks.map fun e => e.d.tag := by
      rw [map_mapIdx']
      apply List.ext_getElem
      · simp
      · intro i h1 h2
        simp only [List.getElem_mapIdx, List.getElem_map]
        obtain ⟨t, ht⟩ := Option.isSome_iff_exists.1
          (disk_tag_some h (List.getElem_mem (l := r.disks) (by simpa using h2)))
        show some (tagOr _ _ ((r.disks[i]'(by simpa using h2)).d.tag)) = _
        rw [ht]; rfl
    have eb : ((r.bearings.map (scaleBrg k)).mapIdx fun i b =>
        tagOr (if b.isSeal then "Seal " else "Bearing ") i b.tag).map some =
        r.bearings.map fun b => b.tag := by
      rw [map_mapIdx']
      apply List.ext_getElem
      · simp
      · intro i h1 h2
        simp only [List.getElem_mapIdx, List.getElem_map]
        obtain ⟨t, ht⟩ := Option.isSome_iff_exists.1
          (brg_tag_some h (List.getElem_mem (l := r.bearings) (by simpa using h2)))
        rw [scaleBrg_tag, ht]; rfl
    rw [List.map_append, List.map_append, es, ed, eb]
    have h123 := (List.nodup_append.1 hnd).1
    have h12 := (List.nodup_append.1 h123).1
    refine List.nodup_append.2 ⟨List.nodup_append.2 ⟨?_, (List.nodup_append.1 h12).2.1, ?_⟩,
      (List.nodup_append.1 h123).2.1, ?_⟩
    · refine (List.Nodup.map (fun i j hij => ?_) List.nodup_range).map (Option.some_injective _)
      exact toString_inj ((String.append_right_inj _).1 hij)
    · intro x hx y hy
      obtain ⟨z, hz, rfl⟩ := List.mem_map.1 hx
      obtain ⟨i, -, rfl⟩ := List.mem_map.1 hz
      obtain ⟨e, he, rfl⟩ := List.mem_map.1 hy
      exact (ht.1 e he i).symm
    · intro x hx y hy
      obtain ⟨e, he, rfl⟩ := List.mem_map.1 hy
      rcases List.mem_append.1 hx with hx | hx
      · obtain ⟨z, hz, rfl⟩ := List.mem_map.1 hx
        obtain ⟨i, -, rfl⟩ := List.mem_map.1 hz
        exact (ht.2 e he i).symm
      · exact (List.nodup_append.1 h123).2.2 x (List.mem_append_right _ hx) _
          (List.mem_map_of_mem he)

end Ross.ConvLemmas
