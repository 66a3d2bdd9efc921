import Verif.Lemmas.Excellon
import Verif.Lemmas.GerberParse
import Verif.Props.Codec

/-! # Lemmas about the text of drill files -/

namespace Verif.Excellon
open Verif.Py Verif.Py.Re Verif.Cam Verif.Utils Spec
open Verif.Gerber (IsInt IsDec)

/-- The characters of a written number. -/
def isNum (c : Char) : Bool := isDig c || c == '-'

theorem isInt_all {s : Str} (h : IsInt s) : s.all isNum = true := by
  obtain ⟨t, h1, _, h3⟩ := h
  have h4 : t.all isNum = true := all_mono h3 (fun c hc => by simp [isNum, hc])
  rcases h1 with rfl | rfl
  · exact h4
  · simp only [List.all_cons, h4, Bool.and_true]; rfl

theorem isInt_ne_nil {s : Str} (h : IsInt s) : s ≠ [] := by
  obtain ⟨t, h1, h2, _⟩ := h
  rcases h1 with rfl | rfl
  · exact h2
  · simp

theorem num_not_mem {s : Str} (h : s.all isNum = true) {c : Char} (hc : isNum c = false) : c ∉ s := by
  intro hm
  have := List.all_eq_true.1 h c hm
  rw [hc] at this; cases this

/-- A number on the grid is written as digits with an optional minus sign, and read back. -/
theorem field_spec {f : ℕ × ℕ} (hf : GoodFormat f) (zs : String) {v : ℚ} (hv : OnGrid f v) (c : Char) :
    ∃ w, field c f zs (some v) = .ok (c :: w) ∧ IsInt w ∧ parseGerberValue w f zs = .ok v := by
  obtain ⟨n, rfl, hn⟩ := hv
  obtain ⟨i, d⟩ := f
  obtain ⟨h1, h2, h3, h4⟩ := hf
  obtain ⟨s, hs, hp⟩ := C01_write_parse_partial (i := i) (d := d) h2 h4 zs (.inr ⟨h1, h3⟩) n hn
  obtain ⟨s', hs', hw⟩ := C03_write_normal_form (i := i) (d := d) h2 h4 zs (n / 10 ^ d)
  have he : s = s' := by
    have := hs.symm.trans hs'; simpa using this
  subst he
  refine ⟨s, ?_, ?_, hp⟩
  · unfold field; simp only [hs]
  · rcases hw with rfl | ⟨t, h1, h2, h3, _⟩
    · exact ⟨['0'], .inl rfl, by simp, rfl⟩
    · exact ⟨t, h1, h2, h3⟩

theorem splitOn_none {c : Char} {s : Str} (h : c ∉ s) : splitOn c s = [s] := by
  induction s with
  | nil => rfl
  | cons x s ih =>
    simp only [List.mem_cons, not_or] at h
    unfold splitOn
    rw [if_neg (fun e => h.1 e.symm), ih h.2]

theorem splitOn_one {c : Char} {s t : Str} (h : c ∉ s) : splitOn c (s ++ c :: t) = s :: splitOn c t := by
  induction s with
  | nil => simp [splitOn]
  | cons x s ih =>
    simp only [List.mem_cons, not_or] at h
    rw [List.cons_append]
    conv_lhs => unfold splitOn
    rw [if_neg (fun e => h.1 e.symm), ih h.2]

/-- Stripping characters that occur only in front. -/
theorem stripBy_front {p : Char → Bool} {c : Char} {s : Str} (hc : p c = true)
    (hs : s.all (fun x => !p x) = true) : stripBy p (c :: s) = s := by
  have h1 : lstripBy p (c :: s) = s := by
    unfold lstripBy
    rw [List.dropWhile_cons, if_pos hc]
    cases s with
    | nil => rfl
    | cons x s =>
      rw [List.all_cons, Bool.and_eq_true] at hs
      rw [List.dropWhile_cons, if_neg]
      have := hs.1
      cases hp : p x <;> simp_all
  unfold stripBy
  rw [h1]
  unfold rstripBy
  have : s.reverse.dropWhile p = s.reverse := by
    cases hr : s.reverse with
    | nil => rfl
    | cons x l =>
      rw [List.dropWhile_cons, if_neg]
      have hx : x ∈ s := List.mem_reverse.1 (hr ▸ List.mem_cons_self)
      have := List.all_eq_true.1 hs x hx
      cases hp : p x <;> simp_all
  rw [this, List.reverse_reverse]

theorem num_all {s : Str} (h : s.all isNum = true) {p : Char → Bool} (hp : ∀ c, isNum c = true → p c = false) :
    s.all (fun x => !p x) = true := by
  rw [List.all_eq_true] at h ⊢
  intro x hx
  rw [hp x (h x hx)]; rfl

theorem num_ne {c d : Char} (h : isNum c = true) (hd : isNum d = false) : c ≠ d := by
  rintro rfl; rw [h] at hd; cases hd

/-- The text of coordinates. -/
def coordText : Option Str → Option Str → Str
  | none, none => []
  | some x, none => 'X' :: x
  | none, some y => 'Y' :: y
  | some x, some y => 'X' :: (x ++ 'Y' :: y)

/-- Reading coordinates. -/
theorem coords_spec {st : FileSettings} {x y : Option ℚ} {wx wy : Option Str}
    (hx : ∀ w, wx = some w → IsInt w) (hy : ∀ w, wy = some w → IsInt w)
    (vx : wx.map (value st) = x.map .ok) (vy : wy.map (value st) = y.map .ok)
    (hne : x ≠ none ∨ y ≠ none) : coords (coordText wx wy) st = .ok (x, y) := by
  have nX : isNum 'X' = false := by decide
  have nY : isNum 'Y' = false := by decide
  have nS : isNum ' ' = false := by decide
  cases wx with
  | none =>
    cases x with
    | some _ => simp at vx
    | none =>
      cases wy with
      | none => cases y with
        | none => simp at hne
        | some _ => simp at vy
      | some w => cases y with
        | none => simp at vy
        | some b =>
          have hw := isInt_all (hy w rfl)
          simp only [Option.map_some, Option.some.injEq] at vy
          have : stripBy (fun c => c == ' ' || c == 'Y') ('Y' :: w) = w := by
            refine stripBy_front (by decide) (num_all hw ?_)
            intro c hc
            simp [num_ne hc nS, num_ne hc nY]
          unfold coordText coords
          simp only [Char.reduceEq, if_false, this, vy]
          rfl
  | some wx =>
    cases x with
    | none => simp at vx
    | some a =>
      have hwx := isInt_all (hx wx rfl)
      simp only [Option.map_some, Option.some.injEq] at vx
      have hsx : ∀ t : Str, t.all (fun c => !(c == 'X')) = true →
          stripBy (· == 'X') ('X' :: (wx ++ t)) = wx ++ t := by
        intro t ht
        refine stripBy_front (by decide) ?_
        rw [List.all_append, ht, Bool.and_true]
        exact num_all hwx (fun c hc => by simp [num_ne hc nX])
      cases wy with
      | none => cases y with
        | some _ => simp at vy
        | none =>
          have h1 := hsx [] rfl
          rw [List.append_nil] at h1
          unfold coordText coords
          simp only [if_true, h1, splitOn_none (num_not_mem hwx nY), vx]
          rfl
      | some w => cases y with
        | none => simp at vy
        | some b =>
          have hw := isInt_all (hy w rfl)
          simp only [Option.map_some, Option.some.injEq] at vy
          have h1 := hsx ('Y' :: w) (by
            rw [List.all_cons]
            simp only [Bool.and_eq_true]
            exact ⟨by decide, num_all hw (fun c hc => by simp [num_ne hc nX])⟩)
          unfold coordText coords
          simp only [if_true, h1, splitOn_one (num_not_mem hwx nY), splitOn_none (num_not_mem hw nY), vx, vy]
          rfl

/-- Writing two optional coordinates. -/
theorem fields_spec {f : ℕ × ℕ} (hf : GoodFormat f) (zs : String) {x y : Option ℚ} (hx : OptGrid f x)
    (hy : OptGrid f y) : ∃ wx wy : Option Str,
      field 'X' f zs x = .ok (coordText wx none) ∧ field 'Y' f zs y = .ok (coordText none wy) ∧
      (∀ w, wx = some w → IsInt w) ∧ (∀ w, wy = some w → IsInt w) ∧
      wx.map (parseGerberValue · f zs) = x.map .ok ∧ wy.map (parseGerberValue · f zs) = y.map .ok := by
  have h1 : ∀ (c : Char) (x : Option ℚ), OptGrid f x → ∃ wx : Option Str,
      field c f zs x = .ok (match wx with | none => [] | some w => c :: w) ∧
      (∀ w, wx = some w → IsInt w) ∧ wx.map (parseGerberValue · f zs) = x.map .ok := by
    intro c x hx
    cases x with
    | none => exact ⟨none, rfl, fun _ h => (by cases h), rfl⟩
    | some v =>
      obtain ⟨w, a, b, d⟩ := field_spec hf zs (hx v rfl) c
      exact ⟨some w, a, fun _ h => (by cases h; exact b), by simp [d]⟩
  obtain ⟨wx, a1, a2, a3⟩ := h1 'X' x hx
  obtain ⟨wy, b1, b2, b3⟩ := h1 'Y' y hy
  refine ⟨wx, wy, ?_, ?_, a2, b2, a3, b3⟩
  · rw [a1]; cases wx <;> rfl
  · rw [b1]; cases wy <;> rfl

theorem coordText_append (wx wy : Option Str) :
    coordText wx none ++ coordText none wy = coordText wx wy := by
  cases wx <;> cases wy <;> simp [coordText]

/-- Coordinates that were written are read back. -/
theorem coord_roundtrip {st : FileSettings} (hf : GoodFormat st.format) {x y : Option ℚ}
    (hx : OptGrid st.format x) (hy : OptGrid st.format y) (hne : x ≠ none ∨ y ≠ none) (m : Option String)
    (tools : ℕ → Option Tool) (u : String) :
    ∃ t, Stmt.toExcellon tools st ⟨u, .coord x y m⟩ = .ok (modePrefix m ++ t) ∧
      coords t st = .ok (x, y) ∧ (∃ wx wy : Option Str, t = coordText wx wy ∧
        (∀ w, wx = some w → IsInt w) ∧ (∀ w, wy = some w → IsInt w) ∧
        (wx.isSome = x.isSome) ∧ (wy.isSome = y.isSome)) := by
  obtain ⟨wx, wy, h1, h2, h3, h4, h5, h6⟩ := fields_spec hf st.zeroSuppression hx hy
  refine ⟨coordText wx wy, ?_, coords_spec h3 h4 h5 h6 hne, wx, wy, rfl, h3, h4, ?_, ?_⟩
  · unfold Stmt.toExcellon
    simp only [h1, h2]
    show (Except.ok _ : PyR Str) = _
    rw [List.append_assoc, coordText_append]
  · cases wx <;> cases x <;> simp at h5 ⊢
  · cases wy <;> cases y <;> simp at h6 ⊢

/-! ## Repeat commands -/

/-- Something that can follow a step. -/
def Stops (b : Str) : Prop :=
  ∀ c t, b = c :: t → isDig c = false ∧ c ≠ '.' ∧ ['+', '-'].contains c = false

theorem tail_first {t b : Str} (ht : t.all isDig = true) (hb : Stops b) :
    First (cat [.star isDig, opt (Re.lit '.'), .star isDig]) (t ++ b) (t, [], b) := by
  have h1 := First.star_append (p := isDig) ht (fun c s h => (hb c s h).1)
  have h2 : First (opt (Re.lit '.')) b ([], [], b) := by
    refine First.opt_none ?_
    cases b with
    | nil => exact Fails.lit_nil
    | cons c s => exact Fails.lit (hb c s rfl).2.1
  have h3 : First (.star isDig) b ([], [], b) := by
    have := First.star_append (p := isDig) (a := []) (b := b) rfl (fun c s h => (hb c s h).1)
    exact this
  have := First.seq h1 (First.seq h2 h3)
  simpa [cat] using this

/-- A step is read up to its end. -/
theorem step_first {w b : Str} (hw : w = [] ∨ IsInt w) (hb : Stops b) :
    First reStep (w ++ b) (w, [], b) := by
  have plain : ∀ t : Str, t.all isDig = true → First reStep (t ++ b) (t, [], b) := by
    intro t ht
    have h1 : First (opt (.chr (['+', '-'].contains ·))) (t ++ b) ([], [], t ++ b) := by
      refine First.opt_none ?_
      cases t with
      | nil =>
        cases b with
        | nil => exact Fails.chr_nil
        | cons c s => exact Fails.chr (hb c s rfl).2.2
      | cons c t =>
        simp only [List.all_cons, Bool.and_eq_true] at ht
        exact Fails.chr (Gerber.not_sign_of_dig ht.1)
    exact First.seq h1 (tail_first ht hb)
  rcases hw with rfl | ⟨t, rfl | rfl, hne, hall⟩
  · exact plain [] rfl
  · exact plain _ hall
  · exact First.seq (First.opt_some (First.chr (c := '-') (by decide))) (tail_first hall hb)

theorem repeat_match {ds : Str} (hd : ds.all isDig = true) {wx wy : Option Str}
    (hx : ∀ w, wx = some w → IsInt w) (hy : ∀ w, wy = some w → IsInt w) :
    reRepeat.pyMatch ('R' :: (ds ++ (coordText wx none ++ coordText none wy))) =
      some ([("rcount", ds), ("xdelta", wx.getD []), ("ydelta", wy.getD [])], []) := by
  have e1 : Stops (coordText none wy) := by
    intro c t h
    cases wy with
    | none => cases h
    | some w => cases h; exact ⟨by decide, by decide, by decide⟩
  have hX : First (cat [opt (Re.lit 'X'), opt (.grp "xdelta" reStep)])
      (coordText wx none ++ coordText none wy)
      (coordText wx none, [("xdelta", wx.getD [])], coordText none wy) := by
    cases wx with
    | none =>
      have h1 : First (opt (Re.lit 'X')) (coordText none wy) ([], [], coordText none wy) := by
        refine First.opt_none ?_
        cases wy with
        | none => exact Fails.lit_nil
        | some w => exact Fails.lit (by decide)
      exact First.seq h1 (First.opt_some (First.grp (step_first (w := []) (.inl rfl) e1)))
    | some w =>
      exact First.seq (First.opt_some (First.lit (c := 'X')))
        (First.opt_some (First.grp (step_first (.inr (hx w rfl)) e1)))
  have hY : First (cat [opt (Re.lit 'Y'), opt (.grp "ydelta" reStep)]) (coordText none wy)
      (coordText none wy, [("ydelta", wy.getD [])], []) := by
    cases wy with
    | none =>
      exact First.seq (First.opt_none Fails.lit_nil)
        (First.opt_some (First.grp (step_first (w := []) (b := []) (.inl rfl) (fun c t h => by cases h))))
    | some w =>
      have h2 := step_first (w := w) (b := []) (.inr (hy w rfl)) (fun c t h => by cases h)
      rw [List.append_nil] at h2
      exact First.seq (First.opt_some (First.lit (c := 'Y'))) (First.opt_some (First.grp h2))
  have hD : First (.grp "rcount" (.star isDig)) (ds ++ (coordText wx none ++ coordText none wy))
      (ds, [("rcount", ds)], coordText wx none ++ coordText none wy) := by
    refine First.grp (First.star_append hd ?_)
    intro c t h
    cases wx with
    | none => exact (e1 c t h).1
    | some w => cases h; decide
  -- the concatenation is associated the other way
  have assoc : ∀ {a b c d : Re} {s : Str} {m : M}, First (.seq (.seq a b) (.seq c d)) s m →
      First (.seq a (.seq b (.seq c d))) s m := by
    intro a b c d s m h
    unfold First at *
    rw [← h]
    simp only [Re.run, List.flatMap_map, List.map_flatMap, List.flatMap_assoc, List.map_map,
      List.append_assoc, Function.comp_def]
  have h := First.seq (First.lit (c := 'R')) (First.seq hD (assoc (First.seq hX hY)))
  exact First.pyMatch h

theorem captured_some {st : FileSettings} {cs : Caps} {n : String} {w : Option Str} {v : Option ℚ}
    (hg : cs.get n = some (w.getD [])) (hw : ∀ s, w = some s → IsInt s)
    (hv : w.map (value st) = v.map .ok) : captured st cs n = .ok v := by
  unfold captured
  rw [hg]
  cases w with
  | none => cases v with
    | none => rfl
    | some _ => simp at hv
  | some s => cases v with
    | none => simp at hv
    | some q =>
      have hne := isInt_ne_nil (hw s rfl)
      simp only [Option.map_some, Option.some.injEq] at hv
      cases s with
      | nil => exact absurd rfl hne
      | cons c s => simp only [Option.getD_some, hv]; rfl

/-- A repeat command that was written is read back. -/
theorem repeat_roundtrip {st : FileSettings} (hf : GoodFormat st.format) (n : ℕ) {dx dy : Option ℚ}
    (hx : OptGrid st.format dx) (hy : OptGrid st.format dy) (nx : dx ≠ some 0) (ny : dy ≠ some 0)
    (tools : ℕ → Option Tool) (u : String) :
    ∃ wx wy : Option Str, (∀ w, wx = some w → IsInt w) ∧ (∀ w, wy = some w → IsInt w) ∧
      Stmt.toExcellon tools st ⟨u, .rep n dx dy⟩ =
        .ok ('R' :: (natStr n ++ (coordText wx none ++ coordText none wy))) ∧
      repFrom ('R' :: (natStr n ++ (coordText wx none ++ coordText none wy))) st = .ok (.rep n dx dy) := by
  obtain ⟨wx, wy, h1, h2, h3, h4, h5, h6⟩ := fields_spec hf st.zeroSuppression hx hy
  have step : ∀ (c : Char) (v : Option ℚ), v ≠ some 0 →
      stepField c st v = field c st.format st.zeroSuppression v := by
    intro c v hv
    cases v with
    | none => rfl
    | some q => exact if_neg (fun e => hv (congrArg some e))
  refine ⟨wx, wy, h3, h4, ?_, ?_⟩
  · unfold Stmt.toExcellon
    simp only [step _ _ nx, step _ _ ny, h1, h2]
    show (Except.ok _ : PyR Str) = _
    have : intStr (n : ℤ) = natStr n := by simp [intStr]
    rw [this, List.append_assoc]
  · unfold repFrom
    rw [repeat_match (natStr_all n) h3 h4]
    have gx := captured_some (cs := [("rcount", natStr n), ("xdelta", wx.getD []), ("ydelta", wy.getD [])])
      (n := "xdelta") (st := st) (v := dx) rfl h3 h5
    have gy := captured_some (cs := [("rcount", natStr n), ("xdelta", wx.getD []), ("ydelta", wy.getD [])])
      (n := "ydelta") (st := st) (v := dy) rfl h4 h6
    have gn : pyInt ((Caps.get [("rcount", natStr n), ("xdelta", wx.getD []), ("ydelta", wy.getD [])] "rcount").getD []) = .ok (n : ℤ) := by
      have : Caps.get [("rcount", natStr n), ("xdelta", wx.getD []), ("ydelta", wy.getD [])] "rcount" = some (natStr n) := rfl
      rw [this]; exact pyInt_natStr n
    simp only [gn, gx, gy]
    rfl

/-! ## Recognising lines -/

theorem isInfix_none {c : Char} {t s : Str} (h : c ∉ s) : isInfix (c :: t) s = false := by
  induction s with
  | nil => rfl
  | cons x s ih =>
    simp only [List.mem_cons, not_or] at h
    unfold isInfix
    rw [ih h.2, Bool.or_false]
    unfold List.isPrefixOf
    simp [h.1]

theorem startsWith_ne {c d : Char} {t s : Str} (h : d ≠ c) : startsWith (c :: t) (d :: s) = false := by
  unfold startsWith List.isPrefixOf
  simp [Ne.symm h]

theorem num_not_space {c : Char} (h : isNum c = true) : isSpace c = false := by
  unfold isNum at h
  rw [Bool.or_eq_true] at h
  rcases h with h | h
  · exact not_isSpace_of_isDig h
  · rw [beq_iff_eq] at h; subst h; decide

/-- The characters of a line of coordinates. -/
def isCoordCh (c : Char) : Bool := isNum c || c == 'X' || c == 'Y'

theorem coordText_all {wx wy : Option Str} (hx : ∀ w, wx = some w → IsInt w)
    (hy : ∀ w, wy = some w → IsInt w) : (coordText wx wy).all isCoordCh = true := by
  have h : ∀ w : Str, IsInt w → w.all isCoordCh = true := fun w hw =>
    all_mono (isInt_all hw) (fun c hc => by simp [isCoordCh, hc])
  have dX : isCoordCh 'X' = true := by decide
  have dY : isCoordCh 'Y' = true := by decide
  cases wx with
  | none => cases wy with
    | none => rfl
    | some y => simp only [coordText, List.all_cons, dY, h y (hy y rfl), Bool.and_self]
  | some x => cases wy with
    | none => simp only [coordText, List.all_cons, dX, h x (hx x rfl), Bool.and_self]
    | some y => simp only [coordText, List.all_cons, List.all_append, dX, dY, h x (hx x rfl), h y (hy y rfl), Bool.and_self]

theorem coordCh_not_space {c : Char} (h : isCoordCh c = true) : isSpace c = false := by
  unfold isCoordCh at h
  simp only [Bool.or_eq_true, beq_iff_eq] at h
  rcases h with (h | rfl) | rfl
  · exact num_not_space h
  · decide
  · decide

theorem not_mem_of_all {s : Str} {p : Char → Bool} (h : s.all p = true) {c : Char} (hc : p c = false) :
    c ∉ s := by
  intro hm
  have := List.all_eq_true.1 h c hm
  rw [hc] at this; cases this

/-- Without a pending `G00` the line itself is parsed. -/
theorem parseLine_eq {s : PState} (hp : s.prev = []) {line : Str} (hl : line ≠ [])
    (hs : line.all (fun c => !isSpace c) = true) : s.parseLine line = s.dispatch line := by
  unfold PState.parseLine
  have e : ({ s with prev := [] } : PState) = s := by rw [← hp]
  simp only [hp, List.nil_append, e, strip_of_no_space hs, if_neg hl]

/-- Lines that begin with none of the other letters are tools, repetitions or coordinates. -/
theorem dispatch_tools {s : PState} {c : Char}
    (hc : c ≠ ';' ∧ c ≠ 'M' ∧ c ≠ '%' ∧ c ≠ 'G' ∧ c ≠ 'I' ∧ c ≠ 'V' ∧ c ≠ 'F') {t : Str}
    (hI : isInfix "INCH".toList (c :: t) = false) (hM : isInfix "METRIC".toList (c :: t) = false) :
    s.dispatch (c :: t) = s.dispatchTools (c :: t) := by
  obtain ⟨h1, h2, h3, h4, h5, h6, h7⟩ := hc
  have k1 : startsWith ";".toList (c :: t) = false := startsWith_ne h1
  have k2 : ∀ u, startsWith ('M' :: u) (c :: t) = false := fun u => startsWith_ne h2
  have k3 : startsWith "%".toList (c :: t) = false := startsWith_ne h3
  have k4 : ∀ u, startsWith ('G' :: u) (c :: t) = false := fun u => startsWith_ne h4
  have k5 : startsWith "ICI".toList (c :: t) = false := startsWith_ne h5
  have k6 : startsWith "VER".toList (c :: t) = false := startsWith_ne h6
  have k7 : ∀ u, startsWith ('F' :: u) (c :: t) = false := fun u => startsWith_ne h7
  unfold PState.dispatch PState.dispatchSettings
  simp only [k1, k3, k5, k6, hI, hM,
    show startsWith "M48".toList (c :: t) = false from k2 _,
    show startsWith "M00".toList (c :: t) = false from k2 _,
    show startsWith "M95".toList (c :: t) = false from k2 _,
    show startsWith "M15".toList (c :: t) = false from k2 _,
    show startsWith "M16".toList (c :: t) = false from k2 _,
    show startsWith "M17".toList (c :: t) = false from k2 _,
    show startsWith "M30".toList (c :: t) = false from k2 _,
    show startsWith "M71".toList (c :: t) = false from k2 _,
    show startsWith "M72".toList (c :: t) = false from k2 _,
    show startsWith "G00".toList (c :: t) = false from k4 _,
    show startsWith "G01".toList (c :: t) = false from k4 _,
    show startsWith "G05".toList (c :: t) = false from k4 _,
    show startsWith "G40".toList (c :: t) = false from k4 _,
    show startsWith "G41".toList (c :: t) = false from k4 _,
    show startsWith "G42".toList (c :: t) = false from k4 _,
    show startsWith "G90".toList (c :: t) = false from k4 _,
    show startsWith "FMAT".toList (c :: t) = false from k7 _,
    show startsWith "F".toList (c :: t) = false from k7 _,
    Bool.false_and, Bool.or_false, Bool.false_eq_true, if_false]

/-- Lines that begin with `X` or `Y` are coordinates. -/
theorem dispatch_XY {s : PState} {c : Char} (hc : c = 'X' ∨ c = 'Y') {t : Str}
    (hI : isInfix "INCH".toList (c :: t) = false) (hM : isInfix "METRIC".toList (c :: t) = false) :
    s.dispatch (c :: t) =
      if isInfix "G85".toList (c :: t) then s.slotLine (c :: t) else s.coordLine (c :: t) := by
  have hxy : (startsWith "X".toList (c :: t) || startsWith "Y".toList (c :: t)) = true := by
    rcases hc with rfl | rfl <;> rfl
  have hT : startsWith "T".toList (c :: t) = false := by rcases hc with rfl | rfl <;> rfl
  have hR : startsWith "R".toList (c :: t) = false := by rcases hc with rfl | rfl <;> rfl
  rw [dispatch_tools (by rcases hc with rfl | rfl <;> decide) hI hM]
  unfold PState.dispatchTools
  simp only [hT, hR, hxy, Bool.false_and, Bool.false_eq_true, if_false, if_true]

/-- Lines that begin with `R` outside of the header are repetitions. -/
theorem dispatch_R {s : PState} (hs : s.state ≠ "HEADER") {t : Str}
    (hI : isInfix "INCH".toList ('R' :: t) = false) (hM : isInfix "METRIC".toList ('R' :: t) = false) :
    s.dispatch ('R' :: t) = s.repeatLine ('R' :: t) := by
  rw [dispatch_tools (by decide) hI hM]
  unfold PState.dispatchTools
  have hT : startsWith "T".toList ('R' :: t) = false := rfl
  have hR : startsWith "R".toList ('R' :: t) = true := rfl
  simp only [hT, hR, hs, Bool.false_and, Bool.true_and, Bool.false_eq_true, if_false, ne_eq,
    not_false_eq_true, decide_true, if_true]

/-- Lines that begin with `T`. -/
theorem dispatch_T {s : PState} {t : Str}
    (hI : isInfix "INCH".toList ('T' :: t) = false) (hM : isInfix "METRIC".toList ('T' :: t) = false) :
    s.dispatch ('T' :: t) =
      if s.state = "HEADER" then s.defineTool ('T' :: t) else s.selectTool ('T' :: t) := by
  rw [dispatch_tools (by decide) hI hM]
  unfold PState.dispatchTools
  have hT : startsWith "T".toList ('T' :: t) = true := rfl
  simp only [hT, Bool.true_and, decide_eq_true_eq, if_true]

/-- A written line of coordinates is recognised as such. -/
theorem parseLine_coord {s : PState} (hp : s.prev = []) {wx wy : Option Str}
    (hx : ∀ w, wx = some w → IsInt w) (hy : ∀ w, wy = some w → IsInt w)
    (hne : wx.isSome = true ∨ wy.isSome = true) :
    s.parseLine (coordText wx wy) = s.coordLine (coordText wx wy) := by
  have hall := coordText_all hx hy
  have hnz : coordText wx wy ≠ [] := by
    cases wx <;> cases wy <;> simp [coordText] at hne ⊢
  rw [parseLine_eq hp hnz (List.all_eq_true.2 fun c hc => by
    rw [coordCh_not_space (List.all_eq_true.1 hall c hc)]; rfl)]
  have hI : isInfix "INCH".toList (coordText wx wy) = false :=
    isInfix_none (not_mem_of_all hall (by decide))
  have hM : isInfix "METRIC".toList (coordText wx wy) = false :=
    isInfix_none (not_mem_of_all hall (by decide))
  have hG : isInfix "G85".toList (coordText wx wy) = false :=
    isInfix_none (not_mem_of_all hall (by decide))
  have : ∃ c t, coordText wx wy = c :: t ∧ (c = 'X' ∨ c = 'Y') := by
    cases wx <;> cases wy <;> simp [coordText] at hne ⊢
  obtain ⟨c, t, e, hc⟩ := this
  rw [e] at hI hM hG ⊢
  rw [dispatch_XY hc hI hM, hG]
  simp

end Verif.Excellon
