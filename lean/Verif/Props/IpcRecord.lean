import Verif.Spec.IpcRecord
import Verif.Props.Ipc
import Verif.Props.Parse

/-! # C54: test records of netlists are read by their columns -/

namespace Verif.Ipc
open Verif.Py

theorem slice_flatten {segs : List Str} {lens : List ℕ} (hl : segs.map List.length = lens) (k : ℕ) {q : Str}
    (hk : segs[k]? = some q) : slice (lens.take k).sum (lens.take (k + 1)).sum segs.flatten = q := by
  subst hl
  induction segs generalizing k with
  | nil => cases hk
  | cons s segs ih =>
    cases k with
    | zero =>
      cases hk
      simp [slice]
    | succ k =>
      have := ih k (by simpa using hk)
      simp only [List.map_cons, List.take_succ_cons, List.sum_cons, List.flatten_cons]
      unfold slice at this ⊢
      rw [List.take_length_add_append, List.drop_length_add_append]
      exact this

theorem slice_one {l : Str} {a : ℕ} {c : Char} (h : slice a (a + 1) l = [c]) : l[a]? = some c := by
  have h1 : (slice a (a + 1) l)[0]? = some c := by rw [h]; rfl
  unfold slice at h1
  rw [List.getElem?_drop, List.getElem?_take_of_lt (by omega)] at h1
  simpa using h1

theorem field_slice {line : Str} {a b : ℕ} (h : b + 1 ≤ line.length) : field line 0 a b = slice a b line := by
  unfold field
  rw [if_neg (by omega)]
  simp

theorem length_pad {n : ℕ} {s : Str} (h : s.length ≤ n) : (pad n s).length = n := by
  unfold pad
  rw [List.length_append, List.length_replicate]
  omega

theorem strip_pad (n : ℕ) (s : Str) : strip (pad n s) = strip s :=
  strip_spaces fun c hc => by rw [List.eq_of_mem_replicate hc]; rfl

theorem length_optDigits (n : ℕ) (v : Option ℕ) : (optDigits n v).length = n := by
  cases v <;> simp [optDigits]

theorem length_coord7 (p : Char) (v : ℤ) : (coord7 p v).length = 7 := by simp [coord7]

theorem pyInt_fix {n v : ℕ} (hn : n ≠ 0) (h : v < 10 ^ n) : pyInt (fixDigits n v) = .ok (v : ℤ) := by
  rw [pyInt_digits (all_fixDigits n v) (by
    intro e
    have := length_fixDigits n v
    rw [e] at this
    exact hn this.symm), natVal_fixDigits_of_lt h]

theorem fix_strip (n v : ℕ) : strip (fixDigits n v) = fixDigits n v :=
  strip_of_no_space (all_mono (all_fixDigits n v) fun c hc => by rw [not_isSpace_of_isDig hc]; rfl)

theorem blank_strip (n : ℕ) : strip (List.replicate n ' ') = [] := by
  have := strip_pad n []
  unfold pad at this
  simp only [List.nil_append, List.length_nil, Nat.sub_zero] at this
  rw [this]; rfl

theorem pyInt_coord7 {p : Char} (hp : p = '+' ∨ p = ' ') {v : ℤ} (hv : v.natAbs < 1000000) :
    pyInt (strip (coord7 p v)) = .ok v := by
  have hd := all_fixDigits 6 v.natAbs
  have hv' : natVal (fixDigits 6 v.natAbs) = v.natAbs := natVal_fixDigits_of_lt (by norm_num; exact hv)
  have hne : fixDigits 6 v.natAbs ≠ [] := by
    intro e
    have := length_fixDigits 6 v.natAbs
    rw [e] at this
    cases this
  have hs : ∀ c, isSpace c = false → strip (c :: fixDigits 6 v.natAbs) = c :: fixDigits 6 v.natAbs := by
    intro c hc
    refine strip_of_no_space ?_
    have : (fixDigits 6 v.natAbs).all (fun c => !isSpace c) = true :=
      all_mono hd fun c hc => by rw [not_isSpace_of_isDig hc]; rfl
    rw [List.all_cons, hc, this]; rfl
  unfold coord7
  by_cases hn : v < 0
  · rw [if_pos hn, hs '-' rfl]
    unfold pyInt
    rw [hs '-' rfl]
    simp only [takeSign, hne, ne_eq, not_false_eq_true, hd, and_self, if_true, hv']
    congr 1
    omega
  · rw [if_neg hn]
    rcases hp with rfl | rfl
    · rw [hs '+' rfl]
      unfold pyInt
      rw [hs '+' rfl]
      simp only [takeSign, hne, ne_eq, not_false_eq_true, hd, and_self, if_true, hv', Bool.false_eq_true,
        if_false]
      congr 1
      omega
    · have : strip (' ' :: fixDigits 6 v.natAbs) = strip (fixDigits 6 v.natAbs) := rfl
      rw [this, fix_strip, pyInt_fix (by decide) (by norm_num; exact hv)]
      congr 1
      omega

/-- Widths of the columns. -/
def widths : List ℕ := [1, 1, 1, 14, 3, 6, 1, 4, 1, 1, 4, 1, 1, 2, 1, 7, 1, 7, 1, 4, 1, 4, 1, 3, 1, 1, 1]

theorem Point.Fits.widths {p : Point} (h : p.Fits) : p.columns.map List.length = widths := by
  unfold Point.columns Ipc.widths
  simp only [List.map_cons, List.map_nil, length_pad h.net.1, length_pad h.id.1, length_pad h.pin.1,
    length_optDigits, length_coord7, length_fixDigits, List.length_cons, List.length_nil]

theorem Point.Fits.length {p : Point} (h : p.Fits) : p.line.length = 74 := by
  unfold Point.line
  rw [List.length_flatten, h.widths]
  rfl

/-- What is read from the columns of a line. -/
theorem Point.Fits.at {p : Point} (h : p.Fits) (k : ℕ) {q : Str} (hk : p.columns[k]? = some q) :
    slice (Ipc.widths.take k).sum (Ipc.widths.take (k + 1)).sum p.line = q := slice_flatten h.widths k hk

/-- The record of a point. -/
def Point.record (p : Point) (units : String) : TestRec where
  featureType := p.kind.name
  netName := p.net
  id := p.id
  pin := if p.pin = [] then none else some p.pin
  location := if p.middle then "middle" else "end"
  holeDiameter := p.hole.map fun v : ℕ => (v : ℚ) * unitSize units
  plated := some p.plated
  access := some (accessName p.access)
  x := some (p.x * unitSize units)
  y := some (p.y * unitSize units)
  rectX := p.rectX.map fun v : ℕ => (v : ℚ) * unitSize units
  rectY := p.rectY.map fun v : ℕ => (v : ℚ) * unitSize units
  rotation := p.rotation.map fun v : ℕ => (v : ℤ)
  soldermask := some (some (maskName p.mask))
  optionalInfo := none

theorem digit_space (n : ℕ) : isSpace (digChar n) = false := not_isSpace_of_isDig (isDig_digChar n)

theorem Point.strip_line (p : Point) : strip p.line = p.line := by
  have : p.line = '3' :: (p.columns.tail.dropLast.flatten) ++ [digChar p.mask] := by
    unfold Point.line Point.columns
    simp
  rw [this]
  exact Gerber.strip_ends rfl (digit_space _)

/-- No dash after column 26 other than the one in that column. -/
theorem Point.offset {p : Point} (h : p.Fits) {rest : Str}
    (hd : p.dash = true ∨ ('-' ∉ p.pin ∧ 0 ≤ p.x ∧ 0 ≤ p.y ∧ '-' ∉ rest)) : recOffset (p.line ++ rest) = 0 := by
  have h6 : (p.line ++ rest)[26]? = some (if p.dash then '-' else ' ') := by
    rw [List.getElem?_append_left (by rw [h.length]; omega)]
    exact slice_one (h.at 6 rfl)
  unfold recOffset
  rcases hd with hd | ⟨h1, h2, h3, h4⟩
  · rw [if_neg]
    rw [h6, hd]
    simp
  · by_cases hb : p.dash = true
    · rw [if_neg]
      rw [h6, hb]
      simp
    · rw [if_pos ⟨by rw [List.length_append, h.length]; omega, by rw [h6]; simp [hb]⟩]
      have e : p.line.drop 26 = (p.columns.drop 6).flatten := by
        have hsum : ((p.columns.take 6).flatten).length = 26 := by
          rw [List.length_flatten, List.map_take, h.widths]; rfl
        have : p.line = (p.columns.take 6).flatten ++ (p.columns.drop 6).flatten := by
          rw [← List.flatten_append, List.take_append_drop]; rfl
        rw [this, List.drop_append_of_le_length (by rw [hsum]), List.drop_of_length_le (by rw [hsum])]
        rfl
      have dig : ∀ n v, '-' ∉ fixDigits n v := by
        intro n v hm
        exact absurd (List.all_eq_true.1 (all_fixDigits n v) _ hm) (by decide)
      have opt : ∀ n v, '-' ∉ optDigits n v := by
        intro n v
        cases v with
        | none => exact fun hm => absurd (List.eq_of_mem_replicate hm) (by decide)
        | some v => exact dig n v
      have co : ∀ v : ℤ, 0 ≤ v → '-' ∉ coord7 p.plus v := by
        intro v hv
        unfold coord7
        rw [if_neg (by omega), List.mem_cons, not_or]
        refine ⟨?_, dig _ _⟩
        rcases h.plus with e | e <;> rw [e] <;> decide
      have : '-' ∉ p.line.drop 26 := by
        rw [e]
        unfold Point.columns
        simp only [List.drop_succ_cons, List.drop_zero, List.mem_flatten, List.mem_cons, List.not_mem_nil,
          or_false, not_exists, not_and, forall_eq_or_imp, forall_eq, hb]
        refine ⟨by simp, ?_, ?_, ?_, opt _ _, ?_, by simp, dig _ _, by simp, co _ h2, by simp, co _ h3, by simp,
          opt _ _, by simp, opt _ _, by simp, opt _ _, by simp, by simp, ?_⟩
        · unfold pad
          rw [List.mem_append, not_or]
          exact ⟨h1, fun hm => absurd (List.eq_of_mem_replicate hm) (by decide)⟩
        · split <;> simp
        · split <;> simp
        · split <;> simp
        · intro hm
          exact absurd (hm ▸ isDig_digChar p.mask : isDig '-' = true) (by decide)
      have : '-' ∉ (p.line ++ rest).drop 26 := by
        rw [List.drop_append_of_le_length (by rw [h.length]; omega), List.mem_append, not_or]
        exact ⟨this, h4⟩
      unfold findChar
      rw [if_neg this]; rfl

/-- An optional number read from its columns. -/
theorem dim_of {line : Str} {a b n : ℕ} {v : Option ℕ} (units : String) (hl : b + 1 ≤ line.length) (hab : a < b)
    (hs : slice a b line = optDigits n v) (hn : n ≠ 0) (hv : ∀ w, v = some w → w < 10 ^ n) :
    dimField line 0 a b units = .ok (v.map fun w : ℕ => (w : ℚ) * unitSize units) := by
  unfold dimField
  rw [if_pos (by omega), field_slice hl, hs]
  cases v with
  | none =>
    simp only [optDigits, blank_strip]
    rfl
  | some w =>
    have h1 : fixDigits n w ≠ [] := by
      intro e
      have := length_fixDigits n w
      rw [e] at this
      exact hn this.symm
    simp only [optDigits, fix_strip, ne_eq, h1, not_false_eq_true, if_true, pyInt_fix hn (hv w rfl)]
    rfl

theorem Point.Fits.read {p : Point} (h : p.Fits) {line : Str} (hpre : ∃ rest, line = p.line ++ rest)
    (hstrip : strip line = line) (ho : recOffset line = 0) {units angle : String}
    (ha : angle = "degrees" ∨ p.rotation = none) :
    TestRec.fromLine line units angle = .ok { p.record units with
      optionalInfo := if 76 ≤ line.length then some (field line 0 75 79) else none } := by
  obtain ⟨rest, rfl⟩ := hpre
  have hl : 74 ≤ (p.line ++ rest).length := by rw [List.length_append, h.length]; omega
  have at' : ∀ (k : ℕ) {q : Str}, p.columns[k]? = some q → (Ipc.widths.take (k + 1)).sum ≤ 74 →
      slice (Ipc.widths.take k).sum (Ipc.widths.take (k + 1)).sum (p.line ++ rest) = q := by
    intro k q hk hs
    rw [← h.at k hk]
    unfold slice
    rw [List.take_append_of_le_length (by rw [h.length]; exact hs)]
  generalize hline : p.line ++ rest = line at *
  have h0 : line[0]? = some '3' := slice_one (at' 0 rfl (by decide))
  have h1 : line[1]? = some p.kind.code := slice_one (at' 1 rfl (by decide))
  have h3 : slice 3 17 line = pad 14 p.net := at' 3 rfl (by decide)
  have h5 : slice 20 26 line = pad 6 p.id := at' 5 rfl (by decide)
  have h7 : slice 27 31 line = pad 4 p.pin := at' 7 rfl (by decide)
  have h8 : line[31]? = some (if p.middle then 'M' else ' ') := slice_one (at' 8 rfl (by decide))
  have h9 : line[32]? = some (if p.hole.isSome then 'D' else ' ') := slice_one (at' 9 rfl (by decide))
  have h10 : slice 33 37 line = optDigits 4 p.hole := at' 10 rfl (by decide)
  have h11 : line[37]? = some (if p.plated then 'P' else 'U') := slice_one (at' 11 rfl (by decide))
  have h13 : slice 39 41 line = fixDigits 2 p.access := at' 13 rfl (by decide)
  have h15 : slice 42 49 line = coord7 p.plus p.x := at' 15 rfl (by decide)
  have h17 : slice 50 57 line = coord7 p.plus p.y := at' 17 rfl (by decide)
  have h19 : slice 58 62 line = optDigits 4 p.rectX := at' 19 rfl (by decide)
  have h21 : slice 63 67 line = optDigits 4 p.rectY := at' 21 rfl (by decide)
  have h23 : slice 68 71 line = optDigits 3 p.rotation := at' 23 rfl (by decide)
  have h26 : slice 73 74 line = [digChar p.mask] := at' 26 rfl (by decide)
  have hf : featureOf p.kind.code = .ok p.kind.name := by cases p.kind <;> rfl
  have hole : holeField line 0 units = .ok (p.hole.map fun v : ℕ => (v : ℚ) * unitSize units) := by
    unfold holeField pyIdx
    rw [Nat.add_zero, h9, field_slice (by omega), h10]
    have hv := h.hole
    cases he : p.hole with
    | none => rfl
    | some v =>
      simp only [bind, Except.bind, Option.isSome_some, if_true, optDigits, fix_strip,
        pyInt_fix (n := 4) (by decide) (hv v he)]
      rfl
  have acc : accessField line 0 = .ok (some (accessName p.access)) := by
    unfold accessField
    rw [if_pos (by omega), field_slice (by omega), h13, pyInt_fix (by decide) (by omega)]
    have : ∀ k : Fin 9, pyIdxInt accessNames ((k : ℕ) : ℤ) = .ok (accessName k) := by decide
    simp only [bind, Except.bind, this]
  have cx : coordField line 0 42 49 units = .ok (some (p.x * unitSize units)) := by
    unfold coordField
    rw [if_pos (by omega), field_slice (by omega), h15, pyInt_coord7 h.plus h.x]
    rfl
  have cy : coordField line 0 50 57 units = .ok (some (p.y * unitSize units)) := by
    unfold coordField
    rw [if_pos (by omega), field_slice (by omega), h17, pyInt_coord7 h.plus h.y]
    rfl
  have rx := dim_of units (by omega) (by decide) h19 (by decide) h.rectX
  have ry := dim_of units (by omega) (by decide) h21 (by decide) h.rectY
  have rot : rotField line 0 angle = .ok (p.rotation.map fun v : ℕ => (v : ℤ)) := by
    unfold rotField
    rw [if_pos (by omega), field_slice (by omega), h23]
    have hv := h.rotation
    cases he : p.rotation with
    | none =>
      simp only [optDigits, blank_strip]
      rfl
    | some v =>
      rw [he] at ha
      have ha' : angle = "degrees" := ha.resolve_right (by simp)
      have hne : fixDigits 3 v ≠ [] := by
        intro e
        have := length_fixDigits 3 v
        rw [e] at this
        cases this
      simp only [optDigits, fix_strip, ne_eq, hne, not_false_eq_true, if_true, ha',
        pyInt_fix (n := 3) (by decide) (hv v he)]
      rfl
  have sm : smField (strip [digChar p.mask]) = some (maskName p.mask) := by
    have : ∀ k : Fin 4, smField (strip [digChar (k : ℕ)]) = some (maskName k) := by decide
    exact this p.mask
  unfold TestRec.fromLine
  simp only [hstrip, ho, pyIdx, h0, h1, h8, bind, Except.bind, ne_eq, not_true_eq_false, if_false, hf,
    hole, acc, cx, cy, rx, ry, rot, Nat.add_zero, h11, h26, hl, show 38 ≤ line.length by omega]
  rw [field_slice (by omega), field_slice (by omega), h3, h7]
  simp only [show ¬ line.length < 27 by omega, if_false, h5, strip_pad, h.net.2, h.id.2, h.pin.2, sm]
  unfold Point.record
  congr 1
  congr 1
  · by_cases hp : p.pin = [] <;> simp [hp]
  · cases p.middle <;> rfl
  · cases p.plated <;> rfl

/-- **C54** A test record is read by its columns: every value of the point comes back, numbers scaled
by the unit.  Missing: a record without dash whose pin has a dash or whose coordinates are negative
(`C54_negative_violated`), a rotation while angles are radians (`C54_radians_violated`), records that end
before the solder mask column (`C54_last_digit_violated`). -/
theorem C54_record_partial {p : Point} (h : p.Fits)
    (hd : p.dash = true ∨ ('-' ∉ p.pin ∧ 0 ≤ p.x ∧ 0 ≤ p.y)) {units angle : String}
    (ha : angle = "degrees" ∨ p.rotation = none) :
    TestRec.fromLine p.line units angle = .ok (p.record units) := by
  have ho : recOffset p.line = 0 := by
    have := Point.offset (rest := []) h (hd.imp_right fun ⟨h1, h2, h3⟩ => ⟨h1, h2, h3, by simp⟩)
    rwa [List.append_nil] at this
  rw [h.read ⟨[], by simp⟩ p.strip_line ho ha, h.length]
  rfl

/-- **C54 for the optional columns**: the four columns after the solder mask and one more come back as they are, if
the line goes on (the rest being what is left of it without surrounding spaces). -/
theorem C54_optional_partial {p : Point} (h : p.Fits) (c d : Char) {info more : Str} (hi : info.length = 4)
    (hs : isSpace d = false)
    (hd : p.dash = true ∨ ('-' ∉ p.pin ∧ 0 ≤ p.x ∧ 0 ≤ p.y ∧ '-' ∉ (c :: info ++ more ++ [d])))
    {units angle : String} (ha : angle = "degrees" ∨ p.rotation = none) :
    TestRec.fromLine (p.line ++ (c :: info ++ more ++ [d])) units angle =
      .ok { p.record units with optionalInfo := some info } := by
  have hstrip : strip (p.line ++ (c :: info ++ more ++ [d])) = p.line ++ (c :: info ++ more ++ [d]) := by
    have : p.line = '3' :: p.columns.tail.flatten := rfl
    rw [this, ← List.append_assoc, List.cons_append]
    exact Gerber.strip_ends rfl hs
  have hlen : (p.line ++ (c :: info ++ more ++ [d])).length = 80 + more.length := by
    simp only [List.length_append, List.length_cons, List.length_nil, h.length, hi]
    omega
  rw [h.read ⟨_, rfl⟩ hstrip (Point.offset h hd) ha, if_pos (by omega), field_slice (by omega)]
  congr 3
  unfold slice
  have e : p.line ++ (c :: info ++ more ++ [d]) = (p.line ++ [c]) ++ (info ++ (more ++ [d])) := by simp
  have h75 : (p.line ++ [c]).length = 75 := by simp [h.length]
  rw [e, List.take_append, h75, List.take_of_length_le (by omega), List.take_append_of_le_length (by omega),
    List.drop_append_of_le_length (by omega), List.drop_of_length_le (by omega), List.nil_append,
    List.take_of_length_le (by omega)]

/-- **C54 fails for the optional columns at the end of a line**: the last character is lost. -/
theorem C54_optional_end_violated {p : Point} (h : p.Fits) (c d : Char) {info : Str} (hi : info.length = 3)
    (hs : isSpace d = false) (hd : p.dash = true)
    {units angle : String} (ha : angle = "degrees" ∨ p.rotation = none) :
    TestRec.fromLine (p.line ++ (c :: info ++ [d])) units angle =
      .ok { p.record units with optionalInfo := some info } := by
  have hstrip : strip (p.line ++ (c :: info ++ [d])) = p.line ++ (c :: info ++ [d]) := by
    have : p.line = '3' :: p.columns.tail.flatten := rfl
    rw [this, ← List.append_assoc, List.cons_append]
    exact Gerber.strip_ends rfl hs
  have hlen : (p.line ++ (c :: info ++ [d])).length = 79 := by
    simp only [List.length_append, List.length_cons, List.length_nil, h.length, hi]
  rw [h.read ⟨_, rfl⟩ hstrip (Point.offset h (.inl hd)) ha, if_pos (by omega)]
  congr 3
  unfold field slice
  rw [hlen]
  have e : p.line ++ (c :: info ++ [d]) = (p.line ++ [c]) ++ (info ++ [d]) := by simp
  have h75 : (p.line ++ [c]).length = 75 := by simp [h.length]
  rw [e]
  simp only [Nat.add_zero, show (79 : ℕ) < 79 + 1 by decide, if_true, show 79 - 1 = 78 by decide]
  rw [List.take_append, h75, List.take_of_length_le (by omega), List.take_append_of_le_length (by omega),
    List.drop_append_of_le_length (by omega), List.drop_of_length_le (by omega), List.nil_append,
    List.take_of_length_le (by omega)]

/-- A through-hole pin and a via. -/
def samplePin : Point where
  kind := .throughHole
  net := "A_N0/RESET".toList
  id := "U12".toList
  dash := true
  pin := "14".toList
  middle := true
  hole := some 320
  plated := true
  access := 0
  x := -12500
  y := 7
  plus := '+'
  rectX := some 600
  rectY := none
  rotation := some 45
  mask := 3

/-- A via without pin number. -/
def sampleVia : Point :=
  { samplePin with id := "VIA".toList, dash := false, pin := [], x := 12500, plus := ' ', rotation := none }

theorem samplePin_fits : samplePin.Fits :=
  ⟨by decide +kernel, by decide +kernel, by decide +kernel, (by intro v h; cases h; decide), by decide, by decide,
    .inl rfl, (by intro v h; cases h; decide), (by intro v h; cases h), (by intro v h; cases h; decide)⟩

theorem sampleVia_fits : sampleVia.Fits :=
  ⟨by decide +kernel, by decide +kernel, by decide +kernel, (by intro v h; cases h; decide), by decide, by decide,
    .inr rfl, (by intro v h; cases h; decide), (by intro v h; cases h), (by intro v h; cases h)⟩

example : samplePin.line =
    "317A_N0/RESET       U12   -14  MD0320PA00X-012500Y+000007X0600Y    R045 S3".toList := by decide +kernel

example : sampleVia.line =
    "317A_N0/RESET       VIA        MD0320PA00X 012500Y 000007X0600Y    R    S3".toList := by decide +kernel

/-- The pin with a primary feature and a sequence number. -/
example : (TestRec.fromLine (samplePin.line ++ " 1234 5".toList) "inch" "degrees").map (·.optionalInfo) =
    .ok (some "1234".toList) := by
  have h := C54_optional_partial (info := "1234".toList) (more := [' ']) (units := "inch") (angle := "degrees")
    samplePin_fits ' ' '5' rfl rfl (.inl rfl) (.inl rfl)
  have e : ' ' :: "1234".toList ++ [' '] ++ ['5'] = " 1234 5".toList := by decide
  rw [e] at h
  rw [h]
  rfl

/-- Without a dash in column 27 the sign of a negative coordinate is taken for it: all columns move. -/
theorem C54_negative_violated : ∃ p : Point, p.Fits ∧ p.dash = false ∧ p.rotation = none ∧
    TestRec.fromLine p.line "inch" "degrees" ≠ .ok (p.record "inch") :=
  ⟨{ sampleVia with x := -12500 }, ⟨by decide +kernel, by decide +kernel, by decide +kernel,
    (by intro v h; cases h; decide), by decide, by decide,
    .inr rfl, (by intro v h; cases h; decide), (by intro v h; cases h), (by intro v h; cases h)⟩, rfl, rfl,
    by decide +kernel⟩

/-- While angles are radians, a rotation raises `TypeError`. -/
theorem C54_radians_violated : ∃ p : Point, p.Fits ∧ p.dash = true ∧
    TestRec.fromLine p.line "inch" "radians" = .error .typeError :=
  ⟨samplePin, samplePin_fits, rfl, by decide +kernel⟩

/-- A record that ends with its second coordinate loses the last digit of it: 0.1234 inches are read as
0.0123. -/
theorem C54_last_digit_violated :
    (TestRec.fromLine "317GND              U1    -1    D0320PA00X+001000Y+001234".toList "inch" "degrees").map
      (fun r => (r.x, r.y)) = .ok (some (1 / 10), some (123 / 10000)) := by decide +kernel

/-! ## In a file -/

theorem words_two {a b : Str} (ha : a ≠ []) (hb : b ≠ []) (hsa : a.all (fun c => !isSpace c) = true)
    (hsb : b.all (fun c => !isSpace c) = true) : words (' ' :: a ++ ' ' :: ' ' :: b) = [a, b] := by
  have one : ∀ s : Str, s.all (fun c => !isSpace c) = true → s.splitOnP isSpace = [s] := by
    intro s hs
    refine List.splitOnP_eq_singleton fun c hc => ?_
    have := List.all_eq_true.1 hs c hc
    simpa using this
  have e : ' ' :: a ++ ' ' :: ' ' :: b = [] ++ ' ' :: (a ++ ' ' :: ([] ++ ' ' :: b)) := rfl
  unfold words
  rw [e, List.splitOnP_append_cons _ _ (by rfl), List.splitOnP_append_cons _ _ (by rfl),
    List.splitOnP_append_cons _ _ (by rfl), one a hsa, one b hsb]
  simp [ha, hb]

theorem NoBreak.append {a b : Str} (ha : NoBreak a) (hb : NoBreak b) : NoBreak (a ++ b) := by
  intro c hc
  rcases List.mem_append.1 hc with h | h
  · exact ha c h
  · exact hb c h

theorem noBreak_of_digits {s : Str} (h : s.all isDig = true) : NoBreak s := by
  intro c hc
  have h1 : isDig c = true := List.all_eq_true.1 h c hc
  refine ⟨?_, ?_⟩
  · rintro rfl; revert h1; decide
  · by_contra h2
    have h2 : isBreak c = true := by simpa using h2
    revert h1
    simp only [isBreak, Bool.or_eq_true, beq_iff_eq] at h2
    rcases h2 with (((((((h2 | h2) | h2) | h2) | h2) | h2) | h2) | h2) | h2 <;> rw [h2] <;> decide

theorem noBreak_one {c : Char} (h : noBreakB [c] = true) : NoBreak [c] := (noBreakB_iff _).1 h

theorem noBreak_blanks (n : ℕ) : NoBreak (List.replicate n ' ') := by
  intro c hc
  rw [List.eq_of_mem_replicate hc]
  decide

theorem noBreak_opt (n : ℕ) (v : Option ℕ) : NoBreak (optDigits n v) := by
  cases v with
  | none => exact noBreak_blanks n
  | some v => exact noBreak_of_digits (all_fixDigits _ _)

/-- Names without line breaks. -/
structure Point.OneLine (p : Point) : Prop where
  net : NoBreak p.net
  id : NoBreak p.id
  pin : NoBreak p.pin

theorem Point.noBreak {p : Point} (h : p.Fits) (ho : p.OneLine) : NoBreak p.line := by
  have hpad : ∀ n (s : Str), NoBreak s → NoBreak (pad n s) := fun n s hs => hs.append (noBreak_blanks _)
  have hif : ∀ (b : Bool) (x y : Char), noBreakB [x] = true → noBreakB [y] = true →
      NoBreak [if b then x else y] := by
    intro b x y hx hy
    cases b
    · exact noBreak_one hy
    · exact noBreak_one hx
  have hco : ∀ v : ℤ, NoBreak (coord7 p.plus v) := by
    intro v
    have hd : NoBreak (fixDigits 6 v.natAbs) := noBreak_of_digits (all_fixDigits _ _)
    refine NoBreak.append (a := [_]) ?_ hd
    split
    · exact noBreak_one rfl
    · rcases h.plus with e | e <;> rw [e] <;> exact noBreak_one rfl
  have hc : ∀ c ∈ p.columns, NoBreak c := by
    unfold Point.columns
    simp only [List.forall_mem_cons, List.not_mem_nil, false_imp_iff, implies_true, and_true]
    refine ⟨noBreak_one rfl, ?_, noBreak_one rfl, hpad _ _ ho.net, (noBreakB_iff _).1 rfl, hpad _ _ ho.id,
      hif _ _ _ rfl rfl, hpad _ _ ho.pin, hif _ _ _ rfl rfl, hif _ _ _ rfl rfl, noBreak_opt _ _,
      hif _ _ _ rfl rfl, noBreak_one rfl, noBreak_of_digits (all_fixDigits _ _), noBreak_one rfl, hco _,
      noBreak_one rfl, hco _, noBreak_one rfl, noBreak_opt _ _, noBreak_one rfl, noBreak_opt _ _,
      noBreak_one rfl, noBreak_opt _ _, noBreak_one rfl, noBreak_one rfl, ?_⟩
    · cases p.kind <;> exact noBreak_one rfl
    · exact noBreak_of_digits (by simp [isDig_digChar])
  intro c hm
  obtain ⟨l, hl, hm⟩ := List.mem_flatten.1 hm
  exact hc l hl c hm

theorem natStr_word (k : ℕ) : ∀ c ∈ natStr k, isSpace c = false := fun c hc =>
  not_isSpace_of_isDig (List.all_eq_true.1 (natStr_all k) c hc)

theorem variableName_word (k : ℕ) : (variableName k).all (fun c => !isSpace c) = true := by
  rw [List.all_eq_true]
  intro c hc
  rcases List.mem_append.1 hc with h | h
  · clear hc; revert c; decide
  · simp [natStr_word k c h]

theorem isNName_variable (k : ℕ) : isNName (variableName k) = true := by
  have hl : (natStr k).getLast? ≠ some '\n' := by
    intro e
    have := List.all_eq_true.1 (natStr_all k) _ (List.mem_of_getLast? e)
    revert this; decide
  have h1 : (variableName k).drop 5 = natStr k := by
    unfold variableName; exact List.drop_left' rfl
  have h2 : (variableName k).take 5 = "NNAME".toList := by
    unfold variableName; exact List.take_left' rfl
  unfold isNName
  simp only [h1, h2, hl, if_false, natStr_all]
  simp [natStr_ne_nil]

theorem strip_word {s : Str} (h : s.all (fun c => !isSpace c) = true) : strip s = s :=
  strip_of_no_space h

/-- A name for a variable: a single word. -/
structure GoodName (s : Str) : Prop where
  nonempty : s ≠ []
  word : s.all (fun c => !isSpace c) = true
  noBreak : NoBreak s

theorem parse_alias (p : Parser) {a : ℕ × Str} (h : GoodName a.2) :
    p.parseLine (aliasLine a) = .ok { p with
      statements := p.statements ++ [.param (variableName a.1) a.2],
      nnames := dictSet p.nnames (variableName a.1) a.2 } := by
  have hne : variableName a.1 ≠ [] := by unfold variableName; simp
  have e : aliasLine a = 'P' :: ' ' :: (' ' :: variableName a.1 ++ ' ' :: ' ' :: a.2) := by
    unfold aliasLine; simp
  have hu : variableName a.1 ≠ "UNITS".toList := by
    intro e
    have := congrArg (fun s : Str => s.head?) e
    revert this; unfold variableName; simp
  have hp : paramFromLine (aliasLine a) = .ok (variableName a.1, a.2) := by
    unfold paramFromLine
    rw [e, show ('P' :: ' ' :: (' ' :: variableName a.1 ++ ' ' :: ' ' :: a.2)).drop 2 =
      ' ' :: variableName a.1 ++ ' ' :: ' ' :: a.2 from rfl,
      words_two hne h.nonempty (variableName_word _) h.word]
    simp only [pyIdx, bind, Except.bind, List.getElem?_cons_zero, ne_eq, not_true_eq_false, if_false,
      List.drop_succ_cons, List.drop_zero]
    rw [strip_word (variableName_word _), show unwords [a.2] = a.2 by simp [unwords], strip_word h.word]
  have hl : p.parseLine (aliasLine a) = (do
      let nv ← paramFromLine (aliasLine a)
      .ok (p.param nv.1 nv.2)) := by
    rw [e]; rfl
  rw [hl, hp]
  simp only [bind, Except.bind, Parser.param, Parser.setUnits, hu, if_false, isNName_variable, if_true, Parser.add]

/-- The name given last. -/
def lastName (as : List (ℕ × Str)) (net : Str) : Option Str :=
  (as.reverse.find? fun a => variableName a.1 = net).map (·.2)

theorem parse_aliases {as : List (ℕ × Str)} (h : ∀ a ∈ as, GoodName a.2) (p : Parser) :
    ∃ ns, (as.map aliasLine).foldlM Parser.parseLine p = .ok { p with
      statements := p.statements ++ as.map (fun a => .param (variableName a.1) a.2), nnames := ns } ∧
      ∀ net, dictGet ns net = (lastName as net <|> dictGet p.nnames net) := by
  induction as using List.reverseRecOn with
  | nil => exact ⟨p.nnames, by simp [pure, Except.pure], by simp [lastName]⟩
  | append_singleton as a ih =>
    obtain ⟨ns, h1, h2⟩ := ih fun x hx => h x (by simp [hx])
    refine ⟨dictSet ns (variableName a.1) a.2, ?_, fun net => ?_⟩
    · rw [List.map_append, List.foldlM_append, h1]
      simp only [bind, Except.bind, List.map_cons, List.map_nil, List.foldlM_cons, List.foldlM_nil,
        parse_alias _ (h a (by simp)), pure, Except.pure]
      simp
    · by_cases e : variableName a.1 = net
      · subst e
        rw [dictGet_set_self]
        simp [lastName]
      · rw [dictGet_set_ne _ _ (Ne.symm e), h2]
        simp [lastName, e]

theorem line_head (p : Point) : ∃ r, p.line = '3' :: p.kind.code :: '7' :: r :=
  ⟨_, rfl⟩

theorem parse_point (q : Parser) {p : Point} (h : p.Fits)
    (hd : p.dash = true ∨ ('-' ∉ p.pin ∧ 0 ≤ p.x ∧ 0 ≤ p.y)) (ha : q.angle = "degrees") :
    q.parseLine p.line = .ok (q.add (.test (q.substNet (p.record q.units)))) := by
  obtain ⟨r, e⟩ := line_head p
  have h1 : q.parseLine p.line = (do
      let r ← TestRec.fromLine p.line q.units q.angle
      .ok (q.add (.test (q.substNet r)))) := by
    rw [e]
    cases p.kind <;> rfl
  rw [h1, C54_record_partial h hd (.inl ha)]
  rfl

theorem parse_points {ps : List Point} (h : ∀ p ∈ ps, p.Fits ∧
    (p.dash = true ∨ ('-' ∉ p.pin ∧ 0 ≤ p.x ∧ 0 ≤ p.y))) (q : Parser) (ha : q.angle = "degrees") :
    (ps.map Point.line).foldlM Parser.parseLine q = .ok { q with
      statements := q.statements ++ ps.map fun p => .test (q.substNet (p.record q.units)) } := by
  induction ps generalizing q with
  | nil => simp [pure, Except.pure]
  | cons p ps ih =>
    have hp := h p (by simp)
    rw [List.map_cons, List.foldlM_cons, parse_point q hp.1 hp.2 ha]
    simp only [bind, Except.bind]
    rw [ih (fun x hx => h x (by simp [hx])) (q.add _) ha]
    have e : ∀ x r, (q.add x).substNet r = q.substNet r := fun _ _ => rfl
    simp only [e]
    simp [Parser.add]

theorem substNet_of {q : Parser} {as : List (ℕ × Str)} (h : ∀ net, dictGet q.nnames net = lastName as net)
    (r : TestRec) : q.substNet r = { r with netName := (lastName as r.netName).getD r.netName } := by
  unfold Parser.substNet
  rw [h]
  split
  · cases lastName as r.netName <;> rfl
  · rename_i hn
    have : lastName as r.netName = none := by
      unfold lastName
      rw [Option.map_eq_none_iff, List.find?_eq_none]
      intro a _ e
      apply hn
      rw [← of_decide_eq_true e]
      exact isNName_variable a.1
    rw [this]
    rfl

theorem Board.netOf_eq (b : Board) (net : Str) : b.netOf net = (lastName b.aliases net).getD net := by
  unfold Board.netOf lastName
  cases b.aliases.reverse.find? fun a => decide (variableName a.1 = net) <;> rfl

/-- The statement of a point. -/
def Board.statement (b : Board) (p : Point) : Rec :=
  .test { p.record b.units with netName := b.netOf p.net }

/-- The statements of the file. -/
def Board.statements (b : Board) : List Rec :=
  .param "UNITS".toList (if b.metric then "CUST 1".toList else "CUST 0".toList) ::
    b.aliases.map (fun a => .param (variableName a.1) a.2) ++ b.points.map b.statement ++ [.eof]

/-- The test points of the file: position, net, side. -/
def Board.testPoints (b : Board) : List ((ℚ × ℚ) × Str × String) :=
  b.points.map fun p => ((p.x * unitSize b.units, p.y * unitSize b.units), b.netOf p.net, accessName p.access)

/-- **C54** A netlist file with a unit statement, names of net name variables and test records gives
exactly these statements; each test point has the position in the chosen unit, and the net name that was
last given to its variable.  Missing: what is missing in `C54_record_partial`. -/
theorem C54_file_partial {b : Board} {eol : Str} (he : IsEol eol) (ha : ∀ a ∈ b.aliases, GoodName a.2)
    (hp : ∀ p ∈ b.points, p.Fits ∧ p.OneLine ∧ (p.dash = true ∨ ('-' ∉ p.pin ∧ 0 ≤ p.x ∧ 0 ≤ p.y))) :
    parseRaw (text eol b.lines) = .ok {
      statements := b.statements
      units := b.units
      angle := "degrees"
      primitives := b.testPoints } := by
  have hg : ∀ l ∈ b.lines.map (fun s => (⟨s, []⟩ : Logical)), l.Good := by
    intro l hl
    obtain ⟨s, hs, rfl⟩ := List.mem_map.1 hl
    have : NoBreak s ∧ s.head? ≠ some '0' := by
      unfold Board.lines at hs
      simp only [List.mem_cons, List.mem_append, List.mem_map, List.cons_append, List.not_mem_nil, or_false] at hs
      rcases hs with rfl | (⟨a, h1, rfl⟩ | ⟨p, h1, rfl⟩) | rfl
      · cases b.metric <;> exact ⟨(noBreakB_iff _).1 (by decide), by decide⟩
      · refine ⟨?_, by simp [aliasLine]⟩
        unfold aliasLine variableName
        exact ((NoBreak.append ((noBreakB_iff _).1 (by decide)) (NoBreak.append ((noBreakB_iff _).1 (by decide))
          (noBreak_of_digits (natStr_all _)))).append ((noBreakB_iff _).1 (by decide))).append (ha a h1).noBreak
      · obtain ⟨r, e⟩ := line_head p
        exact ⟨Point.noBreak (hp p h1).1 (hp p h1).2.1, by rw [e]; simp⟩
      · exact ⟨(noBreakB_iff _).1 (by decide), by decide⟩
    exact ⟨this.1, by simp, this.2, fun _ => rfl, by simp⟩
  have h0 := parseRaw_physical he _ hg
  have e1 : (b.lines.map (fun s => (⟨s, []⟩ : Logical))).flatMap Logical.physical = b.lines := by
    simp [List.flatMap_map, Logical.physical]
  have e2 : (b.lines.map (fun s => (⟨s, []⟩ : Logical))).map Logical.whole = b.lines := by
    simp [Logical.whole, Function.comp_def]
  rw [e1, e2] at h0
  rw [h0]
  have hu : Parser.parseLine {} (unitLine b.metric) = .ok { ({} : Parser) with
      units := b.units
      statements := [.param "UNITS".toList (if b.metric then "CUST 1".toList else "CUST 0".toList)] } := by
    unfold Board.units
    cases b.metric <;> decide +kernel
  obtain ⟨ns, h1, h2⟩ := parse_aliases ha { ({} : Parser) with
      units := b.units
      statements := [.param "UNITS".toList (if b.metric then "CUST 1".toList else "CUST 0".toList)] }
  have h2' : ∀ net, dictGet ns net = lastName b.aliases net := by
    intro net
    rw [h2]
    cases lastName b.aliases net <;> rfl
  have h3 := parse_points (ps := b.points) (fun p h => ⟨(hp p h).1, (hp p h).2.2⟩)
  unfold Board.lines
  rw [List.cons_append, List.cons_append, List.foldlM_cons, hu]
  simp only [bind, Except.bind]
  rw [List.append_assoc, List.foldlM_append, h1]
  simp only [bind, Except.bind]
  rw [List.foldlM_append, h3 _ rfl]
  simp only [bind, Except.bind, List.foldlM_cons, List.foldlM_nil]
  have h9 : ∀ q : Parser, q.parseLine "999".toList = .ok (q.add .eof) := fun q => rfl
  simp only [h9, pure, Except.pure]
  have hs : ∀ p : Point, Parser.substNet { ({} : Parser) with
      units := b.units
      statements := [Rec.param "UNITS".toList (if b.metric then "CUST 1".toList else "CUST 0".toList)] ++
        b.aliases.map fun a => Rec.param (variableName a.1) a.2
      nnames := ns } (p.record b.units) = { p.record b.units with netName := b.netOf p.net } := by
    intro p
    rw [substNet_of (as := b.aliases) h2', Board.netOf_eq]
    rfl
  simp only [hs]
  have ht : testRecords (b.statements) = b.points.map fun p => { p.record b.units with netName := b.netOf p.net } := by
    unfold Board.statements testRecords
    simp [List.filterMap_append, List.filterMap_map, Function.comp_def, Board.statement]
  have hm : (b.points.map fun p => { p.record b.units with netName := b.netOf p.net }).mapM testPrimitive =
      .ok b.testPoints := by
    unfold Board.testPoints
    induction b.points with
    | nil => rfl
    | cons p ps ih =>
      rw [List.map_cons, List.mapM_cons, ih]
      rfl
  change Parser.finish _ = _
  unfold Parser.finish Parser.add
  simp only [bind, Except.bind]
  have hst : ([Rec.param "UNITS".toList (if b.metric then "CUST 1".toList else "CUST 0".toList)] ++
      b.aliases.map (fun a => Rec.param (variableName a.1) a.2) ++
      b.points.map (fun p => Rec.test { p.record b.units with netName := b.netOf p.net })) ++ [Rec.eof] =
      b.statements := rfl
  rw [hst, ht, hm]

/-- A metric board: a via on a net with a variable that was named twice, and a pin. -/
def sampleBoard : Board where
  metric := true
  aliases := [(1, "GROUND".toList), (12, "POWER_SUPPLY_5V".toList), (1, "CHASSIS_GROUND".toList)]
  points := [{ sampleVia with net := "NNAME1".toList }, samplePin]

example : IsEol ['\r', '\n'] ∧ (∀ a ∈ sampleBoard.aliases, GoodName a.2) ∧
    ∀ p ∈ sampleBoard.points, p.Fits ∧ p.OneLine ∧ (p.dash = true ∨ ('-' ∉ p.pin ∧ 0 ≤ p.x ∧ 0 ≤ p.y)) := by
  refine ⟨.inr rfl, ?_, ?_⟩
  · intro a ha
    simp only [sampleBoard, List.mem_cons, List.not_mem_nil, or_false] at ha
    rcases ha with rfl | rfl | rfl <;>
      exact ⟨by decide, by decide, (noBreakB_iff _).1 (by decide)⟩
  · intro p hp
    simp only [sampleBoard, List.mem_cons, List.not_mem_nil, or_false] at hp
    rcases hp with rfl | rfl
    · refine ⟨⟨by decide +kernel, by decide +kernel, by decide +kernel, (by intro v h; cases h; decide), by decide,
        by decide, .inr rfl, (by intro v h; cases h; decide), (by intro v h; cases h), (by intro v h; cases h)⟩,
        ⟨(noBreakB_iff _).1 (by decide), (noBreakB_iff _).1 (by decide), (noBreakB_iff _).1 (by decide)⟩, .inr ?_⟩
      decide
    · exact ⟨samplePin_fits, ⟨(noBreakB_iff _).1 (by decide), (noBreakB_iff _).1 (by decide),
        (noBreakB_iff _).1 (by decide)⟩, .inl rfl⟩

example : sampleBoard.testPoints.map (·.2.1) = ["CHASSIS_GROUND".toList, "A_N0/RESET".toList] := by decide +kernel

end Verif.Ipc
