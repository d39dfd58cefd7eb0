import Verif.Lemmas.TableRead
import Mathlib.Analysis.Real.Pi.Bounds

/-!
# C33: reading tables

`readTable sheet kind n` is the dictionary that `read_table_file` returns for a sheet.
-/

namespace Ross.Props

open Spec Tables TableLemmas

/-- A table of a bearing, in lbf and inches. -/
noncomputable def exTable : Sheet :=
  [[.str "Stiffness in lbf/in", .blank, .blank, .str "speed in RPM"],
   [.str "Speed", .str "Kxx", .str "Cxx", .str "Kyy", .str "cyy"],
   [.blank, .str "lbf/in", .blank, .blank, .blank],
   [.num 100.5, .int 1000, .int 2, .int 3000, .num 0.5],
   [.num 200, .int 1001, .int 3, .int 3001, .num 0.25],
   [.str "end", .blank, .blank, .blank, .blank],
   [.num 300, .int 1002, .int 4, .int 3002, .num 0.125]]

/-- The table of the bearing is read: two rows of data. -/
theorem exTable_read : readTable exTable .bearing 4 = .ok
    [("n", .one 4),
     ("kxx", .list [.num (((1000 : ℤ) : ℝ) * 175.1268369864), .num (((1001 : ℤ) : ℝ) * 175.1268369864)]),
     ("cxx", .list [.num (((2 : ℤ) : ℝ) * 175.1268369864), .num (((3 : ℤ) : ℝ) * 175.1268369864)]),
     ("kyy", .list [.num (((3000 : ℤ) : ℝ) * 175.1268369864), .num (((3001 : ℤ) : ℝ) * 175.1268369864)]),
     ("kxy", .list [.num (0 * 175.1268369864), .num (0 * 175.1268369864)]),
     ("kyx", .list [.num (0 * 175.1268369864), .num (0 * 175.1268369864)]),
     ("cyy", .list [.num (0.5 * 175.1268369864), .num (0.25 * 175.1268369864)]),
     ("cxy", .list [.num (0 * 175.1268369864), .num (0 * 175.1268369864)]),
     ("cyx", .list [.num (0 * 175.1268369864), .num (0 * 175.1268369864)]),
     ("frequency", .list [.num (100.5 * 0.1047197551197), .num (200 * 0.1047197551197)])] := rfl

/-- A table of a shaft with its materials. -/
noncomputable def exModel : Sheet :=
  [[.str "matno", .str "rhoa", .str "ea", .str "ga", .blank, .blank, .blank],
   [.int 1, .num 0.28, .num 3e7, .num 1.2e7, .blank, .blank, .blank],
   [.blank, .blank, .blank, .blank, .blank, .blank, .blank],
   [.str "elemnum", .str "length", .str "od_Left", .str "id_left", .str "od_right", .str "id_right",
    .str "matnum"],
   [.int 1, .str "inches", .blank, .blank, .blank, .blank, .blank],
   [.int 1, .num 2.5, .num 3, .int 0, .num 3, .int 0, .int 1],
   [.int 2, .num 2.5, .num 3, .int 0, .num 3, .int 0, .int 1]]

/-- A table of disks, in units of the international system. -/
noncomputable def exDisks : Sheet :=
  [[.str "n", .str "mass", .str "Ip", .str "Id"],
   [.int 3, .num 32.5, .num 0.25, .num 0.125],
   [.int 5, .num 32.5, .num 0.25, .num 0.125]]

theorem exDisks_read : readTable exDisks .disk 0 = .ok
    [("n", .list [.num (((3 : ℤ) : ℝ) - 1), .num (((5 : ℤ) : ℝ) - 1)]), ("m", .list [.num 32.5, .num 32.5]),
     ("Id", .list [.num 0.125, .num 0.125]), ("Ip", .list [.num 0.25, .num 0.25])] := rfl

/-- **C33 (partial).** When a table is read, the rows that are returned are those of the first block of
consecutive rows below the header that hold a number in the column of the key word, in order; every list
has one entry for each of these rows, taken from the column that is called by the first of the names for
this quantity, and converted; a quantity without column gets its default.  The dictionary has exactly
these keys.

Missing: the property for every sheet; see `C33_int_false`, `C33_optional_false`, `C33_shaft_n_false` for
sheets that are not read, and `C33_rpm_false` for speeds that are not converted. -/
theorem C33_read_partial (sheet : Sheet) (kind : Kind) (n : ℕ) (d : Dict String TableParam)
    (h : readTable sheet kind n = .ok d) :
    ∃ hdr rows, IsTable kind sheet hdr rows ∧
      (∀ k ∈ mandatory kind, ∃ vs, d.get? k = some (.list vs) ∧
        ReadsAs kind (Us sheet) (RpmSeen (keyWord kind) sheet) hdr rows k none vs) ∧
      (∀ ku ∈ leftOut kind, ∃ vs, d.get? ku.1 = some (.list vs) ∧
        ReadsAs kind (Us sheet) (RpmSeen (keyWord kind) sheet) hdr rows ku.1 (some ku.2) vs) ∧
      (kind = .bearing → d.get? "n" = some (.one n)) ∧
      d.keys = (if kind = .bearing then ["n"] else []) ++ mandatory kind ++
        (leftOut kind).map Prod.fst ++
        if kind = .shaft true then ["matno", "rhoa", "ea", "ga", "color"] else [] := by
  have hn := keys_nodup h
  have hk := keys_read h
  obtain ⟨hdr, rows, mats, d1, d2, h1, _, rfl, h4, h5⟩ := (read_iff sheet kind n d).1 h
  refine ⟨hdr, rows, h1, fun k hk => ?_, fun ku hk => ?_, fun hb => ?_, hk⟩
  · obtain ⟨e, he, vs, rfl, hv⟩ := mem_second h4 hk
    exact ⟨vs, get?_of_mem hn (by simp [he]), hv⟩
  · obtain ⟨e, he, vs, rfl, hv⟩ := mem_second h5 hk
    exact ⟨vs, get?_of_mem hn (by simp [he]), hv⟩
  · exact get?_of_mem hn (by simp [hb])

/-- The header and the rows of data are unique. -/
theorem C33_unique {kind : Kind} {sheet : Sheet} {hdr hdr' : List Cell} {rows rows' : Sheet}
    (h : IsTable kind sheet hdr rows) (h' : IsTable kind sheet hdr' rows') :
    hdr = hdr' ∧ rows = rows' := by
  obtain ⟨i, j, h1, h2, h3, h4, h5⟩ := h
  obtain ⟨i', j', h1', h2', h3', h4', h5'⟩ := h'
  have hi := findIdx_header.2 h1
  rw [findIdx_header.2 h1'] at hi
  cases hi
  rw [h2] at h2'
  cases h2'
  have hj := column_iff.2 h3
  rw [column_iff.2 h3'] at hj
  cases hj
  rw [← allInt_iff, Bool.not_eq_true] at h5
  have e := block_unique h4 h5
  rw [block_unique h4' h5] at e
  cases e
  exact ⟨rfl, rfl⟩

/-- **C33 (partial).** A table with a header and a block of data is read, if the columns that it must
have are there and hold numbers where numbers are converted, and if no missing value would have to be
converted. -/
theorem C33_accepts_partial (sheet : Sheet) (kind : Kind) (n : ℕ) (hdr : List Cell) (rows : Sheet)
    (hk : kind ≠ .shaft true) (ht : IsTable kind sheet hdr rows)
    (h1 : ∀ k ∈ mandatory kind, ∃ vs,
      ReadsAs kind (Us sheet) (RpmSeen (keyWord kind) sheet) hdr rows k none vs)
    (h2 : ∀ ku ∈ leftOut kind, ∃ vs,
      ReadsAs kind (Us sheet) (RpmSeen (keyWord kind) sheet) hdr rows ku.1 (some ku.2) vs) :
    ∃ d, readTable sheet kind n = .ok d := by
  obtain ⟨d1, e1⟩ := build_first h1
  obtain ⟨d2, e2⟩ := build_second h2
  exact ⟨_, (read_iff sheet kind n _).2 ⟨hdr, rows, [], d1, d2, ht, onlyIf_neg hk _ _, rfl, e1, e2⟩⟩

example : ∃ hdr rows, IsTable .bearing exTable hdr rows ∧ rows.length = 2 ∧ Us exTable ∧
    RpmSeen "kxx" exTable := by
  obtain ⟨hdr, rows, h1, h2, _⟩ := C33_read_partial _ _ _ _ exTable_read
  refine ⟨hdr, rows, h1, ?_, ?_, ?_⟩
  · obtain ⟨vs, e1, e2⟩ := h2 "kxx" (by decide)
    cases e1
    rcases e2 with ⟨j, _, e2⟩ | ⟨_, u, hu, _⟩
    · exact e2.length_eq
    · cases hu
  · exact ((scan_start "kxx" exTable).2.1).1 rfl
  · exact ((scan_start "kxx" exTable).2.2).1 rfl

/-- **C33 (partial).** The materials of a "Model" sheet: the rows below the header with "matno" up to the
first row without a number; the numbers are truncated, densities and moduli are converted, and a missing
color is `#525252`. -/
theorem C33_materials_partial (sheet : Sheet) (n : ℕ) (d : Dict String TableParam)
    (h : readTable sheet (.shaft true) n = .ok d) :
    ∃ hdr rows no rho e g color, IsMaterials sheet hdr rows ∧
      FromColumn hdr rows "matno" (fun c v => ∃ x, numberIn c = some x ∧ v = .num (intPart x)) no ∧
      FromColumn hdr rows "rhoa" (Scaled (Us sheet) 27679.904) rho ∧
      FromColumn hdr rows "ea" (Scaled (Us sheet) 6894.757) e ∧
      FromColumn hdr rows "ga" (Scaled (Us sheet) 6894.757) g ∧
      ((∃ j, Titled hdr "color" j ∧
          List.Forall₂ (fun r v => Colored (r.getD j .blank) v) rows color) ∨
        (∀ j, ¬ Titled hdr "color" j) ∧ color = List.replicate rows.length (.str "#525252")) ∧
      d.get? "matno" = some (.list no) ∧ d.get? "rhoa" = some (.list rho) ∧
      d.get? "ea" = some (.list e) ∧ d.get? "ga" = some (.list g) ∧
      d.get? "color" = some (.list color) := by
  have hn := keys_nodup h
  obtain ⟨_, _, mats, d1, d2, h1, h2, rfl, h4, h5⟩ := (read_iff sheet (.shaft true) n d).1 h
  rw [onlyIf_pos rfl] at h2
  obtain ⟨hdr, rows, no, rho, e, g, q1, q2, q3, q4, q5, rfl⟩ := (materials_iff _ _ _).1 h2
  rw [propext (scan_start (keyWord (.shaft true)) sheet).2.1] at q3 q4 q5
  exact ⟨hdr, rows, no, rho, e, g, colors (rawNames hdr) rows, q1, q2, q3, q4, q5, colors_spec,
    get?_of_mem hn (by simp), get?_of_mem hn (by simp), get?_of_mem hn (by simp),
    get?_of_mem hn (by simp), get?_of_mem hn (by simp)⟩

/-- The "Model" sheet is read, with one material. -/
example : ∃ d, readTable exModel (.shaft true) 0 = .ok d ∧
    d.get? "matno" = some (.list [.num (intPart ((1 : ℤ) : ℝ))]) ∧
    d.get? "rhoa" = some (.list [.num (0.28 * 27679.904)]) ∧
    d.get? "L" = some (.list [.num (2.5 * 0.0254), .num (2.5 * 0.0254)]) ∧
    d.get? "n" = some (.list [.num (((1 : ℤ) : ℝ) - 1), .num (((2 : ℤ) : ℝ) - 1)]) :=
  ⟨_, rfl, rfl, rfl, rfl, rfl⟩

/-- **C33 (partial).** A "Model" sheet is read if, besides, its materials can be read. -/
theorem C33_accepts_model_partial (sheet : Sheet) (n : ℕ) (hdr : List Cell) (rows : Sheet)
    (ht : IsTable (.shaft true) sheet hdr rows)
    (h1 : ∀ k ∈ mandatory (.shaft true), ∃ vs,
      ReadsAs (.shaft true) (Us sheet) (RpmSeen "od_left" sheet) hdr rows k none vs)
    (h2 : ∀ ku ∈ leftOut (.shaft true), ∃ vs,
      ReadsAs (.shaft true) (Us sheet) (RpmSeen "od_left" sheet) hdr rows ku.1 (some ku.2) vs)
    (hdr' : List Cell) (rows' : Sheet) (hm : IsMaterials sheet hdr' rows')
    (no rho e g : List PVal)
    (h3 : FromColumn hdr' rows' "matno" (fun c v => ∃ x, numberIn c = some x ∧ v = .num (intPart x)) no)
    (h4 : FromColumn hdr' rows' "rhoa" (Scaled (Us sheet) 27679.904) rho)
    (h5 : FromColumn hdr' rows' "ea" (Scaled (Us sheet) 6894.757) e)
    (h6 : FromColumn hdr' rows' "ga" (Scaled (Us sheet) 6894.757) g) :
    ∃ d, readTable sheet (.shaft true) n = .ok d := by
  obtain ⟨d1, e1⟩ := build_first h1
  obtain ⟨d2, e2⟩ := build_second h2
  have hs := propext (scan_start (keyWord (.shaft true)) sheet).2.1
  rw [← hs] at h4 h5 h6
  exact ⟨_, (read_iff sheet (.shaft true) n _).2 ⟨hdr, rows, _, d1, d2, ht,
    (onlyIf_pos rfl _ _).trans ((materials_iff _ _ _).2
      ⟨hdr', rows', no, rho, e, g, hm, h3, h4, h5, h6, rfl⟩), rfl, e1, e2⟩⟩

/-! ### Errors -/

/-- **C33.** A sheet without the key word in a cell is rejected with a `ValueError`. -/
theorem C33_no_header (sheet : Sheet) (kind : Kind) (n : ℕ)
    (h : ∀ row ∈ sheet, ¬ HasText (keyWord kind) row) :
    readTable sheet kind n = .error .valueError := by
  have hs := (scan_start (keyWord kind) sheet).1
  unfold readTable
  dsimp only
  rw [headerKey_eq]
  cases hh : (scan (keyWord kind) 0 ⟨none, false, false⟩ sheet).header with
  | none => rfl
  | some i =>
    obtain ⟨⟨row, h1, h2⟩, _⟩ := (hs i).1 hh
    exact absurd h2 (h row (List.mem_of_getElem? h1))

/-- **C33.** Below the header of a table of bearings or disks without numbers no data are found. -/
theorem C33_no_data (sheet : Sheet) (kind : Kind) (n i j : ℕ) (hdr : List Cell)
    (hk : kind ≠ .shaft true)
    (h1 : IsHeader (keyWord kind) sheet i) (h2 : sheet[i]? = some hdr) (h3 : Named hdr (keyWord kind) j)
    (h : ∀ r ∈ sheet.drop (i + 1), ¬ Numeric (r.getD j .blank)) :
    readTable sheet kind n = .error .exception := by
  have hs := (scan_start (keyWord kind) sheet).1
  unfold readTable
  dsimp only
  rw [headerKey_eq, (hs i).2 h1]
  have hg : sheet.getD i [] = hdr := by rw [List.getD_eq_getElem?_getD, h2]; rfl
  dsimp only
  rw [hg, column_iff.2 h3, onlyIf_neg hk]
  dsimp only
  rw [isolate_eq]
  have : (sheet.drop (i + 1)).any (fun row => isNumber (allInt (sheet.drop (i + 1))) (cellAt row j)) =
      false := by
    rw [List.any_eq_false]
    intro r hr hc
    apply h r hr
    rw [cellAt_eq] at hc
    revert hc
    cases r.getD j .blank <;> simp [isNumber, Numeric]
  rw [this]
  rfl

/-- **C33.** A table without one of the columns that it must have is never read. -/
theorem C33_missing (sheet : Sheet) (kind : Kind) (n : ℕ) (hdr : List Cell) (rows : Sheet)
    (ht : IsTable kind sheet hdr rows) (k : String) (hk : k ∈ mandatory kind)
    (h : ∀ j, ¬ Picks hdr (namesOf kind k) j) (d : Dict String TableParam) :
    readTable sheet kind n ≠ .ok d := by
  intro hd
  obtain ⟨hdr', rows', h1, h2, _⟩ := C33_read_partial sheet kind n d hd
  obtain ⟨rfl, rfl⟩ := C33_unique ht h1
  obtain ⟨vs, _, hv⟩ := h2 k hk
  rcases hv with ⟨j, hj, _⟩ | ⟨_, u, hu, _⟩
  · exact h j hj
  · cases hu

/-! ### Units -/

/-- One pound, one inch and one pound-force in the units of the international system. -/
noncomputable def exactFactor : Kind → String → ℝ
  | .bearing, _ => 0.45359237 * 9.80665 / 0.0254
  | .shaft _, "axial_force" => 0.45359237 * 9.80665
  | .shaft _, _ => 0.0254
  | .disk, "m" => 0.45359237
  | .disk, _ => 0.45359237 * 0.0254 ^ 2

/-- **C33.** The factors differ from the exact ones by less than two parts in ten millions. -/
theorem C33_factors :
    (∀ kind, ∀ k ∈ Changed.changedBy kind,
      |usFactor kind k - exactFactor kind k| ≤ 2e-7 * exactFactor kind k) ∧
    |(27679.904 : ℝ) - 0.45359237 / 0.0254 ^ 3| ≤ 2e-7 * (0.45359237 / 0.0254 ^ 3) ∧
    |(6894.757 : ℝ) - 0.45359237 * 9.80665 / 0.0254 ^ 2| ≤
      2e-7 * (0.45359237 * 9.80665 / 0.0254 ^ 2) ∧
    |(0.1047197551197 : ℝ) - 2 * Real.pi / 60| ≤ 2e-7 * (2 * Real.pi / 60) := by
  refine ⟨fun kind k hk => ?_, ?_, ?_, ?_⟩
  · have key : (usFactor kind k = 175.1268369864 ∧ exactFactor kind k = 0.45359237 * 9.80665 / 0.0254) ∨
        (usFactor kind k = 0.0254 ∧ exactFactor kind k = 0.0254) ∨
        (usFactor kind k = 4.448221615255 ∧ exactFactor kind k = 0.45359237 * 9.80665) ∨
        (usFactor kind k = 0.45359237 ∧ exactFactor kind k = 0.45359237) ∨
        (usFactor kind k = 0.0002926397 ∧ exactFactor kind k = 0.45359237 * 0.0254 ^ 2) := by
      rcases kind with _ | m | _
      · simp only [Changed.changedBy, List.mem_cons, List.not_mem_nil, or_false] at hk
        rcases hk with rfl | rfl | rfl | rfl | rfl | rfl | rfl | rfl <;> exact .inl ⟨rfl, rfl⟩
      · simp only [Changed.changedBy, List.mem_cons, List.not_mem_nil, or_false] at hk
        rcases hk with rfl | rfl | rfl | rfl | rfl | rfl
        iterate 5 exact .inr (.inl ⟨rfl, rfl⟩)
        exact .inr (.inr (.inl ⟨rfl, rfl⟩))
      · simp only [Changed.changedBy, List.mem_cons, List.not_mem_nil, or_false] at hk
        rcases hk with rfl | rfl | rfl
        · exact .inr (.inr (.inr (.inl ⟨rfl, rfl⟩)))
        · exact .inr (.inr (.inr (.inr ⟨rfl, rfl⟩)))
        · exact .inr (.inr (.inr (.inr ⟨rfl, rfl⟩)))
    rw [abs_le]
    rcases key with ⟨h1, h2⟩ | ⟨h1, h2⟩ | ⟨h1, h2⟩ | ⟨h1, h2⟩ | ⟨h1, h2⟩ <;> rw [h1, h2] <;>
      constructor <;> norm_num
  · rw [abs_le]
    constructor <;> norm_num
  · rw [abs_le]
    constructor <;> norm_num
  · have h1 := Real.pi_gt_d20
    have h2 := Real.pi_lt_d20
    rw [abs_le]
    constructor <;> linarith

/-! ### Where the claim fails -/

/-- **C33 fails.** A table of whole numbers only, with a header and a block of data, is rejected: its
rows hold integers of numpy, which are not recognised. -/
theorem C33_int_false :
    (∀ (sheet : Sheet) (kind : Kind) (n i : ℕ), kind ≠ .shaft true → IsHeader (keyWord kind) sheet i →
      (∀ r ∈ sheet.drop (i + 1), ∀ c ∈ r, Whole c) → readTable sheet kind n = .error .exception) ∧
    ∃ sheet : Sheet, IsHeader "kxx" sheet 0 ∧ IsBlock 0 (sheet.drop 1) (sheet.drop 1) ∧
      sheet.length = 3 ∧ readTable sheet .bearing 0 = .error .exception ∧
      readTable [[.str "kxx", .str "cxx"], [.num 1000000, .int 100], [.int 2000000, .int 200]]
        .bearing 0 ≠ .error .exception := by
  refine ⟨fun sheet kind n i hk h1 h2 => ?_,
    [[.str "kxx", .str "cxx"], [.int 1000000, .int 100], [.int 2000000, .int 200]], ?_, ?_, rfl, rfl, ?_⟩
  · have hs := (scan_start (keyWord kind) sheet).1
    unfold readTable
    dsimp only
    rw [headerKey_eq, (hs i).2 h1]
    dsimp only
    rw [onlyIf_neg hk, isolate_eq]
    have hb : ∀ f : List Cell → Bool, (∀ r ∈ sheet.drop (i + 1), f r = false) →
        (sheet.drop (i + 1)).any f = false := fun f hf => by
      rw [List.any_eq_false]
      intro r hr
      rw [hf r hr]
      decide
    rw [hb]
    · rfl
    · intro r hr
      cases column (names (sheet.getD i [])) (keyWord kind) with
      | none => rfl
      | some j =>
        dsimp only
        rw [allInt_iff.2 h2, isNumber_int (allInt_iff.2 h2) hr j]
  · exact findIdx_header.1 rfl
  · refine ⟨by decide, fun r hr => ?_, [], [], by simp, by simp, by simp⟩
    simp only [List.drop_succ_cons, List.drop_zero, List.mem_cons, List.not_mem_nil, or_false] at hr
    rcases hr with rfl | rfl <;> exact trivial
  · intro h
    cases h

/-- **C33 fails.** Speeds in revolutions per minute are not converted when "rpm" stands below a header
and a mention of pounds or inches: the search has ended there. -/
theorem C33_rpm_false :
    ∃ sheet : Sheet, Mentions "rpm" sheet ∧ ¬ RpmSeen "kxx" sheet ∧
      (readTable sheet .bearing 0).map (fun d => d.get? "frequency") =
        .ok (some (.list [.num 3000.5])) := by
  have h : ¬ RpmSeen "kxx"
      [[.str "in lb and inches", .blank, .blank, .blank, .blank],
       [.str "kxx", .str "cxx", .str "kyy", .str "cyy", .str "speed"],
       [.str "lb/in", .str "lb s/in", .str "lb/in", .str "lb s/in", .str "rpm"],
       [.num 1000, .num 1, .num 1000, .num 1, .num 3000.5]] := by
    rw [← (scan_start "kxx" _).2.2]
    decide
  exact ⟨_, mentions_iff.2 ⟨_, by simp; exact .inr (.inr (.inl rfl)), by decide⟩, h, rfl⟩

/-- **C33 fails.** A table of a bearing in lbf and inches that leaves out the optional columns for `kyy`
and `cyy` is never read, nor is one that mentions "rpm" and has no speeds. -/
theorem C33_optional_false (sheet : Sheet) (n : ℕ) (hdr : List Cell) (rows : Sheet)
    (ht : IsTable .bearing sheet hdr rows)
    (h : Us sheet ∧ (∀ j, ¬ Named hdr "kyy" j) ∨ Us sheet ∧ (∀ j, ¬ Named hdr "cyy" j) ∨
      RpmSeen "kxx" sheet ∧ (∀ j, ¬ Named hdr "frequency" j) ∧ ∀ j, ¬ Named hdr "speed" j)
    (d : Dict String TableParam) : readTable sheet .bearing n ≠ .ok d := by
  intro hd
  obtain ⟨hdr', rows', h1, _, h2, _⟩ := C33_read_partial sheet .bearing n d hd
  obtain ⟨rfl, rfl⟩ := C33_unique ht h1
  have hp : ∀ {w j}, Picks hdr [w] j → Named hdr w j := by
    rintro w j ⟨l, w', r, e, hw, _⟩
    have := List.append_eq_cons_iff.1 e.symm
    rcases this with ⟨rfl, e'⟩ | ⟨l', rfl, e'⟩
    · cases e'
      exact hw
    · simp at e'
  rcases h with ⟨hu, h⟩ | ⟨hu, h⟩ | ⟨hr, h, h'⟩
  · obtain ⟨vs, _, hv⟩ := h2 ("kyy", .null) (by simp [leftOut])
    rcases hv with ⟨j, hj, _⟩ | ⟨_, u, hu', _, hc⟩
    · exact h j (hp hj)
    · cases hu'
      exact hc ⟨rfl, .inl ⟨hu, by decide⟩⟩
  · obtain ⟨vs, _, hv⟩ := h2 ("cyy", .null) (by simp [leftOut])
    rcases hv with ⟨j, hj, _⟩ | ⟨_, u, hu', _, hc⟩
    · exact h j (hp hj)
    · cases hu'
      exact hc ⟨rfl, .inl ⟨hu, by decide⟩⟩
  · obtain ⟨vs, _, hv⟩ := h2 ("frequency", .null) (by simp [leftOut])
    rcases hv with ⟨j, ⟨l, w, r, e, hw, _⟩, _⟩ | ⟨_, u, hu', _, hc⟩
    · have : w ∈ ["frequency", "speed"] := by
        have e' : ["frequency", "speed"] = l ++ w :: r := e
        rw [e']
        simp
      simp only [List.mem_cons, List.not_mem_nil, or_false] at this
      rcases this with rfl | rfl
      exacts [h j hw, h' j hw]
    · cases hu'
      exact hc ⟨rfl, .inr (.inl ⟨hr, rfl, rfl⟩)⟩

example : readTable
    [[.str "lb", .blank], [.str "kxx", .str "cxx"], [.num 1000, .num 1]] .bearing 0 =
      .error .typeError := rfl

/-- **C33 fails.** A table of a shaft that leaves out the optional column of the nodes is never read. -/
theorem C33_shaft_n_false (sheet : Sheet) (model : Bool) (n : ℕ) (hdr : List Cell) (rows : Sheet)
    (ht : IsTable (.shaft model) sheet hdr rows)
    (h : ∀ j, ¬ Picks hdr ["n", "elemnum"] j) (d : Dict String TableParam) :
    readTable sheet (.shaft model) n ≠ .ok d := by
  intro hd
  obtain ⟨hdr', rows', h1, _, h2, _⟩ := C33_read_partial sheet (.shaft model) n d hd
  obtain ⟨rfl, rfl⟩ := C33_unique ht h1
  obtain ⟨vs, _, hv⟩ := h2 ("n", .null) (by simp [leftOut])
  rcases hv with ⟨j, hj, _⟩ | ⟨_, u, hu', _, hc⟩
  · exact h j hj
  · cases hu'
    exact hc ⟨rfl, .inr (.inr ⟨by simp, rfl⟩)⟩

example : readTable
    [[.str "length", .str "idl", .str "odl", .str "idr", .str "odr", .str "material"],
     [.num 0.5, .int 0, .num 0.25, .int 0, .num 0.25, .int 1]] (.shaft false) 0 = .error .typeError := rfl

/-- **C33 fails.** The torque of a table in lbf and inches is returned as it is. -/
theorem C33_torque_false (sheet : Sheet) (model : Bool) (n : ℕ) (d : Dict String TableParam)
    (hd : readTable sheet (.shaft model) n = .ok d) :
    ∃ hdr rows, IsTable (.shaft model) sheet hdr rows ∧ ∀ j, Picks hdr ["torque"] j →
      d.get? "torque" = some (.list (rows.map fun r => match r.getD j .blank with
        | .int z => .num z
        | .num x => .num x
        | .str s => .str s
        | .blank => .nan)) := by
  obtain ⟨hdr, rows, h1, -, h2, -⟩ := C33_read_partial sheet (.shaft model) n d hd
  refine ⟨hdr, rows, h1, fun j hj => ?_⟩
  obtain ⟨vs, e, hv⟩ := h2 ("torque", .num 0) (by simp [leftOut])
  rw [e]
  rcases hv with ⟨j', hj', h3⟩ | ⟨h3, _⟩
  · have : j' = j := by
      have a := firstColumn_iff.2 hj
      have b : firstColumn (names hdr) ["torque"] = some j' := firstColumn_iff.2 hj'
      rw [a] at b
      exact (Option.some.inj b).symm
    subst this
    congr 2
    clear e h1 h2 hd
    induction h3 with
    | nil => rfl
    | @cons r v _ _ hb _ ih =>
      rw [List.map_cons]
      refine congrArg₂ _ ?_ ih
      have hf : factorOf (.shaft model) (Us sheet) (RpmSeen (keyWord (.shaft model)) sheet) "torque" = 1 := by
        simp [factorOf, usFactor]
      have hz : shiftOf (.shaft model) "torque" = 0 := by simp [shiftOf]
      unfold Becomes at hb
      rw [if_neg (by simp)] at hb
      simp only [hf, hz, sub_zero, mul_one] at hb
      cases hc : r.getD j' .blank <;> rw [hc] at hb <;> first | exact hb | exact hb.1
  · exact absurd hj (h3 j)

end Ross.Props
