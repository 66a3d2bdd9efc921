import Verif.Props.DrillRemarks
import Verif.Lemmas.ExcellonTool
import Verif.Props.ExcellonStmts

/-! # C93: drill lines mean the same however their numbers are spelled -/

namespace Verif.Excellon
open Verif.Py Verif.Cam Verif.Utils Verif.Excellon.Spec

/-! ## Specification -/

/-- The characters of a number. -/
def numCh (c : Char) : Bool := isDig c || c == '+' || c == '-' || c == '.'

/-- A number with a decimal point, and its value. -/
inductive Written : Str → ℚ → Prop
  | plain {a b : Str} : a.all isDig = true → b.all isDig = true → ¬(a = [] ∧ b = []) →
      Written (a ++ '.' :: b) (natVal a + (natVal b : ℚ) / 10 ^ b.length)
  | plus {a b : Str} : a.all isDig = true → b.all isDig = true → ¬(a = [] ∧ b = []) →
      Written ('+' :: (a ++ '.' :: b)) (natVal a + (natVal b : ℚ) / 10 ^ b.length)
  | minus {a b : Str} : a.all isDig = true → b.all isDig = true → ¬(a = [] ∧ b = []) →
      Written ('-' :: (a ++ '.' :: b)) (-(natVal a + (natVal b : ℚ) / 10 ^ b.length))

/-- A number as it may be written: a sign, digits, a decimal point and digits, each of which may be missing. -/
def IsNumber (w : Str) : Prop := ∃ sign a b : Str, w = sign ++ (a ++ b) ∧ sign ∈ [[], ['+'], ['-']] ∧ a.all isDig = true ∧
  (b = [] ∨ ∃ f, b = '.' :: f ∧ f.all isDig = true)

/-- The same number whatever the format: with or without a plus sign, or of the same value with decimal points. -/
inductive SameNumber : Str → Str → Prop
  | same {a : Str} : IsNumber a → SameNumber a a
  | plus {a : Str} : a.all isDig = true → SameNumber a ('+' :: a)
  | unplus {a : Str} : a.all isDig = true → SameNumber ('+' :: a) a
  | point {a b : Str} {q : ℚ} : Written a q → Written b q → SameNumber a b

/-- The same coordinates with other numbers. -/
inductive Places (N : Str → Str → Prop) : Str → Str → Prop
  | x {a a' : Str} : N a a' → Places N ('X' :: a) ('X' :: a')
  | y {b b' : Str} : N b b' → Places N ('Y' :: b) ('Y' :: b')
  | xy {a a' b b' : Str} : N a a' → N b b' → Places N ('X' :: (a ++ 'Y' :: b)) ('X' :: (a' ++ 'Y' :: b'))

/-- The same words of a tool in another order, with the same numbers. -/
structure SameWords (l l' : List (Char × Str)) : Prop where
  some_ : l ≠ []
  letters : ∀ x ∈ l, x.1 ∈ ['B', 'C', 'F', 'H', 'S', 'Z'] ∧ x.2.all isVal = true
  letters' : ∀ x ∈ l', x.2.all isVal = true
  once : (l.map Prod.fst).Nodup
  same : ∃ m, l.Perm m ∧ List.Forall₂ (fun a b => a.1 = b.1 ∧ SameNumber a.2 b.2) m l'

/-- The same line of a drill file.  `waiting` says that a bare `G00` or `G01` waits for coordinates. -/
inductive SameLine : Bool → Str → Str → Prop
  | same (waiting : Bool) (l : Str) : SameLine waiting l l
  | place (waiting : Bool) {c c' : Str} : Places SameNumber c c' → SameLine waiting c c'
  | rout {w c c' : Str} : w ∈ ["G00".toList, "G01".toList] → Places SameNumber c c' → SameLine false (w ++ c) (w ++ c')
  | slot {c c' d d' : Str} : Places SameNumber c c' → Places SameNumber d d' →
      SameLine false (c ++ "G85".toList ++ d) (c' ++ "G85".toList ++ d')
  | select {n n' : Str} : n ≠ [] → n.all isDig = true → n.length ≤ 3 → n' ≠ [] → n'.all isDig = true → n'.length ≤ 3 →
      natVal n = natVal n' → SameLine false ('T' :: n) ('T' :: n')
  | define {n n' : Str} {l l' : List (Char × Str)} : n ≠ [] → n.all isDig = true → n' ≠ [] → n'.all isDig = true →
      natVal n = natVal n' → SameWords l l' → SameLine false ('T' :: (n ++ segText l)) ('T' :: (n' ++ segText l'))

/-- The same lines, with other white space around them. -/
inductive SameLines : Bool → List Str → List Str → Prop
  | nil (b : Bool) : SameLines b [] []
  | cons {b : Bool} {l l' : Str} {a a' : List Str} : SameLine b (strip l) (strip l') → SameLines (waits b l) a a' →
      SameLines b (l :: a) (l' :: a')

/-! ## Numbers -/

theorem Written.point {a : Str} {q : ℚ} (h : Written a q) : '.' ∈ a := by cases h <;> simp

theorem numCh_of_isDig {c : Char} (h : isDig c = true) : numCh c = true := by simp [numCh, h]

theorem Written.all {a : Str} {q : ℚ} (h : Written a q) : a.all numCh = true := by
  cases h with
  | plain h1 h2 _ | plus h1 h2 _ | minus h1 h2 _ =>
    have h1 := all_mono h1 fun c => numCh_of_isDig
    have h2 := all_mono h2 fun c => numCh_of_isDig
    simp only [List.all_cons, List.all_append, h1, h2, Bool.and_true]
    rfl

theorem natVal_point (a b : Str) : (natVal (a ++ b) : ℚ) / 10 ^ b.length = natVal a + (natVal b : ℚ) / 10 ^ b.length := by
  rw [natVal_append]
  have : (10 : ℚ) ^ b.length ≠ 0 := by positivity
  push_cast
  field_simp

theorem Written.pyFloat {a : Str} {q : ℚ} (h : Written a q) : pyFloat a = .ok q := by
  have key : ∀ {a b : Str} {c : Char}, a.all isDig = true → b.all isDig = true → isSpace c = false →
      strip (c :: (a ++ '.' :: b)) = c :: (a ++ '.' :: b) := by
    intro a b c h1 h2 hc
    refine strip_of_no_space ?_
    rw [List.all_cons, List.all_append, List.all_cons, all_not_space_of_digits h1, all_not_space_of_digits h2, hc]
    rfl
  cases h with
  | plain h1 h2 h3 => rw [pyFloat_point h1 h2 h3, natVal_point]
  | plus h1 h2 h3 =>
    unfold Verif.Py.pyFloat
    rw [key h1 h2 rfl]
    simp only [takeSign, pyUFloat_point h1 h2 h3, natVal_point]
    rfl
  | minus h1 h2 h3 =>
    unfold Verif.Py.pyFloat
    rw [key h1 h2 rfl]
    simp only [takeSign, pyUFloat_point h1 h2 h3, natVal_point]
    rfl

theorem IsNumber.all {a : Str} (h : IsNumber a) : a.all numCh = true := by
  obtain ⟨sign, a, b, rfl, hs, ha, hb⟩ := h
  have h1 : sign.all numCh = true := by revert sign; decide
  have h2 := all_mono ha fun c => numCh_of_isDig
  have h3 : b.all numCh = true := by
    rcases hb with rfl | ⟨f, rfl, hf⟩
    · rfl
    · rw [List.all_cons, all_mono hf fun c => numCh_of_isDig]; rfl
  rw [List.all_append, List.all_append, h1, h2, h3]
  rfl

theorem IsNumber.digits {a : Str} (h : a.all isDig = true) : IsNumber a :=
  ⟨[], a, [], by simp, by simp, h, .inl rfl⟩

theorem Written.number {a : Str} {q : ℚ} (h : Written a q) : IsNumber a := by
  cases h with
  | plain h1 h2 _ => exact ⟨[], _, _, rfl, by simp, h1, .inr ⟨_, rfl, h2⟩⟩
  | plus h1 h2 _ => exact ⟨['+'], _, _, rfl, by simp, h1, .inr ⟨_, rfl, h2⟩⟩
  | minus h1 h2 _ => exact ⟨['-'], _, _, rfl, by simp, h1, .inr ⟨_, rfl, h2⟩⟩

theorem SameNumber.number {a b : Str} (h : SameNumber a b) : IsNumber a ∧ IsNumber b := by
  cases h with
  | same h => exact ⟨h, h⟩
  | plus h => exact ⟨.digits h, ['+'], a, [], by simp, by simp, h, .inl rfl⟩
  | unplus h => exact ⟨⟨['+'], b, [], by simp, by simp, h, .inl rfl⟩, .digits h⟩
  | point h1 h2 => exact ⟨h1.number, h2.number⟩

theorem SameNumber.all {a b : Str} (h : SameNumber a b) : a.all numCh = true ∧ b.all numCh = true :=
  ⟨h.number.1.all, h.number.2.all⟩

theorem SameNumber.value {a b : Str} (h : SameNumber a b) (st : FileSettings) : value st a = value st b := by
  unfold Verif.Excellon.value
  cases h with
  | same h => rfl
  | plus h => exact (parse_plus _ _ (digits_not_mem h rfl) _).symm
  | unplus h => exact parse_plus _ _ (digits_not_mem h rfl) _
  | point h1 h2 =>
    unfold parseGerberValue
    rw [if_pos h1.point, if_pos h2.point, h1.pyFloat, h2.pyFloat]

/-- Numbers that read the same with the settings of a state. -/
def Agree (s : PState) (a b : Str) : Prop :=
  a.all numCh = true ∧ b.all numCh = true ∧ ∀ st, s.settings = .ok st → value st a = value st b

theorem SameNumber.agree {a b : Str} (h : SameNumber a b) (s : PState) : Agree s a b :=
  ⟨h.all.1, h.all.2, fun st _ => h.value st⟩

/-! ## Coordinates -/

theorem Places.mono {N M : Str → Str → Prop} (h : ∀ a b, N a b → M a b) {c c' : Str} (hc : Places N c c') :
    Places M c c' := by
  cases hc with
  | x h1 => exact .x (h _ _ h1)
  | y h1 => exact .y (h _ _ h1)
  | xy h1 h2 => exact .xy (h _ _ h1) (h _ _ h2)

theorem num_ne_of {c d : Char} (h : numCh c = true) (hd : numCh d = false) : c ≠ d := by
  rintro rfl; rw [h] at hd; cases hd

theorem coords_x {st : FileSettings} {a : Str} (ha : a.all numCh = true) :
    coords ('X' :: a) st = value st a >>= fun x => .ok (some x, none) := by
  have e : stripBy (· == 'X') ('X' :: a) = a := stripBy_front (by decide) (List.all_eq_true.2 fun c hc => by
    simp [num_ne_of (List.all_eq_true.1 ha c hc) (d := 'X') (by decide)])
  unfold coords
  simp only [if_true, e, splitOn_none (not_mem_of_all ha (c := 'Y') (by decide))]

theorem coords_y {st : FileSettings} {a : Str} (ha : a.all numCh = true) :
    coords ('Y' :: a) st = value st a >>= fun y => .ok (none, some y) := by
  have e : stripBy (fun c => c == ' ' || c == 'Y') ('Y' :: a) = a :=
    stripBy_front (by decide) (List.all_eq_true.2 fun c hc => by
      simp [num_ne_of (List.all_eq_true.1 ha c hc) (d := 'Y') (by decide),
        num_ne_of (List.all_eq_true.1 ha c hc) (d := ' ') (by decide)])
  unfold coords
  simp only [Char.reduceEq, if_false, e]

theorem coords_xy {st : FileSettings} {a b : Str} (ha : a.all numCh = true) (hb : b.all numCh = true) :
    coords ('X' :: (a ++ 'Y' :: b)) st = value st a >>= fun x => value st b >>= fun y => .ok (some x, some y) := by
  have e : stripBy (· == 'X') ('X' :: (a ++ 'Y' :: b)) = a ++ 'Y' :: b :=
    stripBy_front (by decide) (List.all_eq_true.2 fun c hc => by
      rcases List.mem_append.1 hc with h | h
      · simp [num_ne_of (List.all_eq_true.1 ha c h) (d := 'X') (by decide)]
      · rcases List.mem_cons.1 h with rfl | h
        · decide
        · simp [num_ne_of (List.all_eq_true.1 hb c h) (d := 'X') (by decide)])
  unfold coords
  simp only [if_true, e, splitOn_one (not_mem_of_all ha (c := 'Y') (by decide)),
    splitOn_none (not_mem_of_all hb (c := 'Y') (by decide))]

theorem Places.coords {s : PState} {c c' : Str} (h : Places (Agree s) c c') {st : FileSettings} (hs : s.settings = .ok st) :
    coords c st = coords c' st := by
  cases h with
  | x h1 => rw [coords_x h1.1, coords_x h1.2.1, h1.2.2 st hs]
  | y h1 => rw [coords_y h1.1, coords_y h1.2.1, h1.2.2 st hs]
  | xy h1 h2 => rw [coords_xy h1.1 h2.1, coords_xy h1.2.1 h2.2.1, h1.2.2 st hs, h2.2.2 st hs]

/-- Characters of coordinates. -/
def placeCh (c : Char) : Bool := numCh c || c == 'X' || c == 'Y'

theorem Places.text {s : PState} {c c' : Str} (h : Places (Agree s) c c') :
    (∃ k t, c = k :: t ∧ (k = 'X' ∨ k = 'Y')) ∧ c.all placeCh = true := by
  have m : ∀ {a : Str}, a.all numCh = true → a.all placeCh = true := fun h => all_mono h fun c hc => by simp [placeCh, hc]
  cases h with
  | x h1 => exact ⟨⟨_, _, rfl, .inl rfl⟩, by rw [List.all_cons, m h1.1]; rfl⟩
  | y h1 => exact ⟨⟨_, _, rfl, .inr rfl⟩, by rw [List.all_cons, m h1.1]; rfl⟩
  | xy h1 h2 =>
    exact ⟨⟨_, _, rfl, .inl rfl⟩, by rw [List.all_cons, List.all_append, List.all_cons, m h1.1, m h2.1]; rfl⟩

theorem Agree.symm {s : PState} {a b : Str} (h : Agree s a b) : Agree s b a :=
  ⟨h.2.1, h.1, fun st hs => (h.2.2 st hs).symm⟩

theorem Places.symm {s : PState} {c c' : Str} (h : Places (Agree s) c c') : Places (Agree s) c' c := by
  cases h with
  | x h1 => exact .x h1.symm
  | y h1 => exact .y h1.symm
  | xy h1 h2 => exact .xy h1.symm h2.symm

theorem placeCh_not_space {c : Char} (h : placeCh c = true) : isSpace c = false := by
  by_contra hc
  have hc : isSpace c = true := by simpa using hc
  simp only [isSpace, Bool.or_eq_true, beq_iff_eq] at hc
  rcases hc with ((((rfl | rfl) | rfl) | rfl) | rfl) | rfl <;> revert h <;> decide

theorem places_no_space {c : Str} (h : c.all placeCh = true) : c.all (fun x => !isSpace x) = true :=
  all_mono h fun c hc => by rw [placeCh_not_space hc]; rfl

/-- The line is a coordinate line. -/
theorem Places.dispatch {s : PState} {c c' : Str} (h : Places (Agree s) c c') (t : PState) :
    t.dispatch c = t.coordLine c := by
  obtain ⟨⟨k, r, rfl, hk⟩, ha⟩ := h.text
  rw [dispatch_XY hk (isInfix_none (not_mem_of_all ha (by decide))) (isInfix_none (not_mem_of_all ha (by decide))),
    show isInfix "G85".toList (k :: r) = false from isInfix_none (not_mem_of_all ha (by decide))]
  rfl

theorem Places.coordLine {s : PState} {c c' : Str} (h : Places (Agree s) c c') : s.coordLine c = s.coordLine c' := by
  unfold PState.coordLine
  cases hs : s.settings with
  | error e => rfl
  | ok st => simp only [bind, Except.bind, h.coords hs]

theorem Places.rout {s : PState} {c c' w : Str} (hw : w.length = 3) (h : Places (Agree s) c c') :
    s.rout (w ++ c) = s.rout (w ++ c') := by
  unfold PState.rout
  have e : ∀ x : Str, (w ++ x).drop 3 = x := fun x => by rw [← hw, List.drop_left]
  simp only [e]
  have hs' : ({ s.add .routeMode with state := "ROUT" } : PState).settings = s.settings := rfl
  simp only [hs']
  cases hs : s.settings with
  | error e => rfl
  | ok st => simp only [bind, Except.bind, h.coords hs]

theorem Places.linear {s : PState} {c c' w : Str} (hw : w.length = 3) (h : Places (Agree s) c c') :
    s.linear (w ++ c) = s.linear (w ++ c') := by
  unfold PState.linear
  have e : ∀ x : Str, (w ++ x).drop 3 = x := fun x => by rw [← hw, List.drop_left]
  simp only [e]
  have hs' : ({ s.add .routeMode with state := "LINEAR" } : PState).settings = s.settings := rfl
  simp only [hs']
  cases hs : s.settings with
  | error e => rfl
  | ok st => simp only [bind, Except.bind, h.coords hs]

theorem strip_code {w c : Str} (hw : w ∈ ["G00".toList, "G01".toList]) (hc : c.all placeCh = true) :
    strip (w ++ c) = w ++ c := by
  refine strip_of_no_space ?_
  rw [List.all_append, places_no_space hc, Bool.and_true]
  revert w
  decide

theorem Places.code {s : PState} {c c' w : Str} (hw : w ∈ ["G00".toList, "G01".toList]) (h : Places (Agree s) c c') :
    s.dispatch (w ++ c) = s.dispatch (w ++ c') := by
  have ne : ∀ {c c' : Str}, Places (Agree s) c c' → ∀ v : Str, v.length = 3 → w.length = 3 → strip (w ++ c) ≠ v := by
    intro c c' h v hv hl e
    rw [strip_code hw h.text.2] at e
    obtain ⟨⟨k, r, rfl, _⟩, _⟩ := h.text
    have := congrArg List.length e
    simp [hv, hl] at this
  have d0 : ∀ c, s.dispatch ("G00".toList ++ c) =
    if strip ("G00".toList ++ c) = "G00".toList then .ok { s with prev := "G00".toList ++ c } else s.rout ("G00".toList ++ c) :=
    fun _ => rfl
  have d1 : ∀ c, s.dispatch ("G01".toList ++ c) =
    if strip ("G01".toList ++ c) = "G01".toList then .ok { s with prev := "G01".toList ++ c } else s.linear ("G01".toList ++ c) :=
    fun _ => rfl
  rcases List.mem_cons.1 hw with rfl | hw'
  · rw [d0, d0, if_neg (ne h _ rfl rfl), if_neg (ne h.symm _ rfl rfl)]
    exact h.rout rfl
  · obtain rfl : w = "G01".toList := List.mem_singleton.1 hw'
    rw [d1, d1, if_neg (ne h _ rfl rfl), if_neg (ne h.symm _ rfl rfl)]
    exact h.linear rfl

/-- Reading either spelling gives the same. -/
theorem Places.parseLine {b : Bool} {s : PState} (hk : Kept b s) {c c' : Str} (h : Places (Agree s) c c') :
    s.parseLine c = s.parseLine c' := by
  have h0 : Places (Agree { s with prev := [] }) c c' := h
  have ne : ∀ {c c' : Str}, Places (Agree s) c c' → strip c ≠ [] := by
    intro c c' h
    rw [strip_of_no_space (places_no_space h.text.2)]
    obtain ⟨⟨k, r, rfl, _⟩, _⟩ := h.text
    simp
  have ne2 : ∀ {c c' w : Str}, w ∈ ["G00".toList, "G01".toList] → Places (Agree s) c c' → strip (w ++ c) ≠ [] := by
    intro c c' w hw h
    rw [strip_code hw h.text.2]
    revert w; simp
  unfold PState.parseLine
  cases b with
  | false =>
    have hk : s.prev = [] := hk
    simp only [hk, List.nil_append, if_neg (ne h), if_neg (ne h.symm)]
    rw [h0.dispatch, h0.symm.dispatch]
    exact h0.coordLine
  | true =>
    have hk : s.prev = "G00".toList ∨ s.prev = "G01".toList := hk
    have hm : s.prev ∈ ["G00".toList, "G01".toList] := by simpa using hk
    simp only [if_neg (ne2 hm h), if_neg (ne2 hm h.symm)]
    exact h0.code hm

/-! ## Slots -/

theorem slot_same {s : PState} {c c' d d' : Str} (hc : Places (Agree s) c c') (hd : Places (Agree s) d d') :
    s.dispatch (c ++ "G85".toList ++ d) = s.dispatch (c' ++ "G85".toList ++ d') := by
  have key : ∀ {c c' d d' : Str}, Places (Agree s) c c' → Places (Agree s) d d' →
      s.dispatch (c ++ "G85".toList ++ d) = s.slotLine (c ++ "G85".toList ++ d) ∧
      splitStr "G85".toList (c ++ "G85".toList ++ d) = [c, d] := by
    intro c c' d d' hc hd
    have hg : 'G' ∉ c := not_mem_of_all hc.text.2 (by decide)
    have hg' : 'G' ∉ d := not_mem_of_all hd.text.2 (by decide)
    have hn : ∀ k : Char, placeCh k = false → k ∉ "G85".toList → k ∉ c ++ "G85".toList ++ d := by
      intro k h1 h2 hm
      rcases List.mem_append.1 hm with hm | hm
      · rcases List.mem_append.1 hm with hm | hm
        · exact not_mem_of_all hc.text.2 h1 hm
        · exact h2 hm
      · exact not_mem_of_all hd.text.2 h1 hm
    constructor
    · have hi : isInfix "G85".toList (c ++ "G85".toList ++ d) = true := isInfix_iff.2 ⟨c, d, rfl⟩
      obtain ⟨⟨k, r, e, hk⟩, _⟩ := hc.text
      have h1 : isInfix "INCH".toList (c ++ "G85".toList ++ d) = false := isInfix_none (hn _ (by decide) (by decide))
      have h2 : isInfix "METRIC".toList (c ++ "G85".toList ++ d) = false := isInfix_none (hn _ (by decide) (by decide))
      subst e
      rw [List.cons_append, List.cons_append] at h1 h2 hi ⊢
      rw [dispatch_XY hk h1 h2, if_pos hi]
    · have := splitStr_one (t := ['8', '5']) (b := d) hg
      rw [splitStr_none hg'] at this
      exact this
  obtain ⟨e1, e2⟩ := key hc hd
  obtain ⟨e3, e4⟩ := key hc.symm hd.symm
  rw [e1, e3]
  unfold PState.slotLine
  cases hs : s.settings with
  | error e => rfl
  | ok st =>
    have : slotFrom (c ++ "G85".toList ++ d) st = slotFrom (c' ++ "G85".toList ++ d') st := by
      unfold slotFrom
      rw [e2, e4]
      change (coords c st >>= fun p => coords d st >>= _) = (coords c' st >>= fun p => coords d' st >>= _)
      rw [hc.coords hs, hd.coords hs]
    simp only [bind, Except.bind, this]

/-! ## Tools -/

theorem pyInt_digits' {n : Str} (h : n.all isDig = true) (hn : n ≠ []) : pyInt n = .ok (natVal n) := by
  unfold pyInt
  rw [strip_of_no_space (all_not_space_of_digits h), takeSign_digits h]
  simp [h, hn]

theorem mem_strip {c : Char} (hc : isSpace c = false) {s : Str} (h : c ∈ s) : c ∈ strip s := by
  have key : ∀ {l : Str}, c ∈ l → c ∈ l.dropWhile isSpace := by
    intro l hl
    rw [← List.takeWhile_append_dropWhile (p := isSpace) (l := l)] at hl
    rcases List.mem_append.1 hl with h | h
    · have := List.all_eq_true.1 (List.all_takeWhile (p := isSpace) (l := l)) c h
      rw [hc] at this; cases this
    · exact h
  unfold strip stripBy lstripBy rstripBy
  exact List.mem_reverse.2 (key (List.mem_reverse.2 (key h)))

/-- A text with a letter is no integer. -/
theorem pyInt_letter {c : Char} (hc : isCmd c = true) {s : Str} (h : c ∈ s) : pyInt s = .error .valueError := by
  have hm : c ∈ ['B', 'C', 'F', 'H', 'S', 'T', 'Z'] := by simpa [isCmd] using hc
  have key : ∀ c ∈ ['B', 'C', 'F', 'H', 'S', 'T', 'Z'], isSpace c = false ∧ isDig c = false ∧ c ≠ '+' ∧ c ≠ '-' := by
    decide
  obtain ⟨hsp, hd, hp⟩ := key c hm
  have h := mem_strip hsp h
  unfold pyInt
  have h2 : c ∈ (takeSign (strip s)).2 := by
    unfold takeSign
    split
    · rename_i e; rw [e] at h; simpa [hp.1] using h
    · rename_i e; rw [e] at h; simpa [hp.2] using h
    · exact h
  have : (takeSign (strip s)).2.all isDig = false := by
    rw [← Bool.not_eq_true, List.all_eq_true]
    intro hall
    rw [hall c h2] at hd; cases hd
  simp [this]

theorem select_letter {c : Char} (hc : isCmd c = true) {t : Str} (h : c ∈ t) :
    toolSelFrom ('T' :: t) = .error .valueError := by
  unfold toolSelFrom
  simp only [List.drop_succ_cons, List.drop_zero]
  split
  · rw [pyInt_letter hc h]; rfl
  · rw [← List.take_append_drop 2 t] at h
    rcases List.mem_append.1 h with h | h
    · rw [pyInt_letter hc h]; rfl
    · rw [pyInt_letter hc h]
      cases hp : pyInt (t.take 2) with
      | ok n => rfl
      | error e =>
        have : e = .valueError := by
          unfold pyInt at hp
          simp only [] at hp
          split at hp <;> cases hp
          rfl
        rw [this]; rfl

theorem pyFloat_err {s : Str} {e : PyErr} (h : pyFloat s = .error e) : e = .valueError := by
  unfold pyFloat at h
  simp only [] at h
  split at h <;> cases h
  rfl

theorem value_err {st : FileSettings} {s : Str} {e : PyErr} (h : value st s = .error e) : e = .valueError := by
  unfold value parseGerberValue at h
  split at h
  · exact pyFloat_err h
  · split at h
    · cases h; rfl
    · simp only [] at h
      split at h
      · cases h
      · rename_i hf
        cases h
        exact pyFloat_err hf

/-- The effect of a command. -/
def cmdSet (c : Char) (t : Tool) (v : ℚ) : Tool :=
  if c = 'B' then { t with retractRate := some v } else if c = 'C' then { t with diameter := some v }
  else if c = 'F' then { t with feedRate := some v } else if c = 'H' then { t with maxHitCount := some v }
  else if c = 'S' then { t with rpm := some (1000 * v) } else { t with depthOffset := some v }

theorem command_eq {st : FileSettings} {c : Char} (hc : c ∈ ['B', 'C', 'F', 'H', 'S', 'Z']) (t : Tool) (v : Str) :
    Tool.command st t (c, v) = value st v >>= fun q => .ok (cmdSet c t q) := by
  simp only [List.mem_cons, List.not_mem_nil, or_false] at hc
  rcases hc with rfl | rfl | rfl | rfl | rfl | rfl <;>
    simp only [Tool.command, cmdSet, Char.reduceEq, if_true, if_false] <;> cases value st v <;> rfl

theorem cmdSet_comm {c d : Char} (hc : c ∈ ['B', 'C', 'F', 'H', 'S', 'Z']) (hd : d ∈ ['B', 'C', 'F', 'H', 'S', 'Z'])
    (h : c ≠ d) (t : Tool) (q r : ℚ) : cmdSet d (cmdSet c t q) r = cmdSet c (cmdSet d t r) q := by
  simp only [List.mem_cons, List.not_mem_nil, or_false] at hc hd
  rcases hc with rfl | rfl | rfl | rfl | rfl | rfl <;> rcases hd with rfl | rfl | rfl | rfl | rfl | rfl <;>
    first
      | exact absurd rfl h
      | rfl

theorem commands_perm {st : FileSettings} {l m : List (Char × Str)} (h : l.Perm m) :
    (∀ x ∈ l, x.1 ∈ ['B', 'C', 'F', 'H', 'S', 'Z']) → (l.map Prod.fst).Nodup → ∀ t : Tool,
    l.foldlM (fun t cv => t.command st cv) t = m.foldlM (fun t cv => t.command st cv) t := by
  induction h with
  | nil => intros; rfl
  | cons x _ ih =>
    intro hl hn t
    simp only [List.foldlM_cons]
    simp only [List.map_cons, List.nodup_cons] at hn
    cases Tool.command st t x with
    | error e => rfl
    | ok t' => exact ih (fun y hy => hl y (List.mem_cons_of_mem _ hy)) hn.2 t'
  | swap x y l =>
    intro hl hn t
    obtain ⟨c, v⟩ := x
    obtain ⟨d, w⟩ := y
    have hc := hl (c, v) (by simp)
    have hd := hl (d, w) (by simp)
    have hne : d ≠ c := by
      simp only [List.map_cons, List.nodup_cons, List.mem_cons, not_or] at hn
      exact hn.1.1
    simp only [List.foldlM_cons, command_eq hc, command_eq hd]
    cases hv : value st v with
    | error e =>
      obtain rfl := value_err hv
      cases hw : value st w with
      | error e' => obtain rfl := value_err hw; rfl
      | ok r => rfl
    | ok q =>
      cases hw : value st w with
      | error e' => rfl
      | ok r =>
        change l.foldlM _ (cmdSet c (cmdSet d t r) q) = l.foldlM _ (cmdSet d (cmdSet c t q) r)
        rw [cmdSet_comm hc hd (fun e => hne e.symm)]
  | trans h1 _ ih1 ih2 =>
    intro hl hn t
    rw [ih1 hl hn t]
    exact ih2 (fun x hx => hl x (h1.mem_iff.2 hx)) ((h1.map _).nodup_iff.1 hn) t

theorem commands_same {st : FileSettings} {m l : List (Char × Str)}
    (h : List.Forall₂ (fun a b => a.1 = b.1 ∧ SameNumber a.2 b.2) m l) :
    (∀ x ∈ m, x.1 ∈ ['B', 'C', 'F', 'H', 'S', 'Z']) → ∀ t : Tool,
    m.foldlM (fun t cv => t.command st cv) t = l.foldlM (fun t cv => t.command st cv) t := by
  induction h with
  | nil => intros; rfl
  | @cons a b m l hab _ ih =>
    intro hm t
    obtain ⟨c, v⟩ := a
    obtain ⟨d, w⟩ := b
    obtain ⟨h1, h2⟩ := hab
    have h1 : c = d := h1
    subst h1
    have hc := hm (c, v) (by simp)
    have h2 : SameNumber v w := h2
    simp only [List.foldlM_cons, command_eq hc, h2.value st]
    cases value st w with
    | error e => rfl
    | ok q => exact ih (fun x hx => hm x (List.mem_cons_of_mem _ hx)) _

theorem isCmd_of_mem {c : Char} (h : c ∈ ['B', 'C', 'F', 'H', 'S', 'Z']) : isCmd c = true := by
  revert c; decide

theorem SameWords.letters2 {l l' : List (Char × Str)} (h : SameWords l l') :
    ∀ x ∈ l', x.1 ∈ ['B', 'C', 'F', 'H', 'S', 'Z'] ∧ x.2.all isVal = true := by
  obtain ⟨m, hp, hf⟩ := h.same
  intro x hx
  refine ⟨?_, h.letters' x hx⟩
  obtain ⟨i, hi, rfl⟩ := List.getElem_of_mem hx
  have hlen := hf.length_eq
  have := (List.forall₂_iff_get.1 hf).2 i (by omega) hi
  have h1 : m[i].1 = l'[i].1 := this.1
  rw [← h1]
  exact (h.letters _ (hp.mem_iff.2 (List.getElem_mem _))).1

theorem SameWords.some2 {l l' : List (Char × Str)} (h : SameWords l l') : l' ≠ [] := by
  obtain ⟨m, hp, hf⟩ := h.same
  intro e
  subst e
  have := hf.length_eq
  rw [← hp.length_eq] at this
  exact h.some_ (List.length_eq_zero_iff.1 this)

theorem commands_line {n : Str} {l : List (Char × Str)} (hn : n.all isDig = true)
    (hl : ∀ x ∈ l, x.1 ∈ ['B', 'C', 'F', 'H', 'S', 'Z'] ∧ x.2.all isVal = true) :
    commands ('T' :: (n ++ segText l)) = ('T', n) :: l := by
  have : 'T' :: (n ++ segText l) = segText (('T', n) :: l) := by simp [segText]
  rw [this]
  refine commands_segText ?_
  intro x hx
  rcases List.mem_cons.1 hx with rfl | hx
  · exact ⟨rfl, all_mono hn fun c hc => by simp [isVal, isNum, hc]⟩
  · exact ⟨isCmd_of_mem (hl x hx).1, (hl x hx).2⟩

/-- Characters of a tool line. -/
def toolCh (c : Char) : Bool := isVal c || isCmd c

theorem toolLine_all {n : Str} {l : List (Char × Str)} (hn : n.all isDig = true)
    (hl : ∀ x ∈ l, x.1 ∈ ['B', 'C', 'F', 'H', 'S', 'Z'] ∧ x.2.all isVal = true) :
    ('T' :: (n ++ segText l)).all toolCh = true := by
  have h1 : n.all toolCh = true := all_mono hn fun c hc => by simp [toolCh, isVal, isNum, hc]
  have h2 : (segText l).all toolCh = true := by
    rw [List.all_eq_true]
    intro c hc
    unfold segText at hc
    obtain ⟨w, hw, hcw⟩ := List.mem_flatten.1 hc
    obtain ⟨x, hx, rfl⟩ := List.mem_map.1 hw
    rcases List.mem_cons.1 hcw with rfl | h
    · simp [toolCh, isCmd_of_mem (hl x hx).1]
    · simp [toolCh, List.all_eq_true.1 (hl x hx).2 c h]
  rw [List.all_cons, List.all_append, h1, h2]
  rfl

theorem toolLine_dispatch {t : Str} (ht : ('T' :: t).all toolCh = true) (s : PState) :
    s.dispatch ('T' :: t) = (if s.state = "HEADER" then s.defineTool ('T' :: t) else s.selectTool ('T' :: t)) ∧
    strip ('T' :: t) = 'T' :: t ∧ isInfix ",OFF".toList ('T' :: t) = false ∧ isInfix ",ON".toList ('T' :: t) = false := by
  refine ⟨dispatch_T (isInfix_none (not_mem_of_all ht (by decide))) (isInfix_none (not_mem_of_all ht (by decide))),
    strip_of_no_space (all_mono ht fun c hc => ?_), isInfix_none (not_mem_of_all ht (by decide)),
    isInfix_none (not_mem_of_all ht (by decide))⟩
  by_contra h
  have h : isSpace c = true := by simpa using h
  simp only [isSpace, Bool.or_eq_true, beq_iff_eq] at h
  rcases h with ((((rfl | rfl) | rfl) | rfl) | rfl) | rfl <;> revert hc <;> decide

theorem defineTool_same {s : PState} {t t' : Str} (ht : ('T' :: t).all toolCh = true) (ht' : ('T' :: t').all toolCh = true)
    (h : ∀ st, Tool.fromExcellon ('T' :: t) st s.plated = Tool.fromExcellon ('T' :: t') st s.plated) :
    s.defineTool ('T' :: t) = s.defineTool ('T' :: t') := by
  obtain ⟨_, _, h1, h2⟩ := toolLine_dispatch ht s
  obtain ⟨_, _, h3, h4⟩ := toolLine_dispatch ht' s
  unfold PState.defineTool
  simp only [h1, h2, h3, h4, h]
  rfl

theorem selectTool_same {s : PState} {t t' : Str} (h : toolSelFrom t = toolSelFrom t') :
    s.selectTool t = s.selectTool t' := by
  unfold PState.selectTool
  rw [h]

theorem fromExcellon_number {st : FileSettings} {n n' : Str} (hn : n ≠ []) (hd : n.all isDig = true)
    (hn' : n' ≠ []) (hd' : n'.all isDig = true) (hv : natVal n = natVal n') (t : Tool) :
    Tool.command st t ('T', n) = Tool.command st t ('T', n') := by
  simp only [Tool.command, Char.reduceEq, if_true, if_false]
  rw [pyInt_digits' hd hn, pyInt_digits' hd' hn', hv]

theorem toolLine_parse {s : PState} (hk : s.prev = []) {t t' : Str} (ht : ('T' :: t).all toolCh = true)
    (ht' : ('T' :: t').all toolCh = true)
    (h : ∀ st p, Tool.fromExcellon ('T' :: t) st p = Tool.fromExcellon ('T' :: t') st p)
    (h2 : toolSelFrom ('T' :: t) = toolSelFrom ('T' :: t')) :
    s.parseLine ('T' :: t) = s.parseLine ('T' :: t') := by
  unfold PState.parseLine
  simp only [hk, List.nil_append]
  rw [(toolLine_dispatch ht s).2.1, (toolLine_dispatch ht' s).2.1, if_neg (by simp), if_neg (by simp),
    (toolLine_dispatch ht _).1, (toolLine_dispatch ht' _).1, defineTool_same ht ht' fun st => h st _,
    selectTool_same h2]

/-! ## Lines -/

theorem SameLine.parseLine {b : Bool} {l l' : Str} (h : SameLine b l l') {s : PState} (hk : Kept b s) :
    s.parseLine l = s.parseLine l' := by
  cases h with
  | same => rfl
  | place _ h => exact (h.mono fun a b hab => hab.agree s).parseLine hk
  | @rout w c c' hw h =>
    have hk : s.prev = [] := hk
    have h : Places (Agree { s with prev := [] }) c c' := h.mono fun a b hab => hab.agree _
    unfold PState.parseLine
    simp only [hk, List.nil_append]
    have ne : ∀ {c c' : Str}, Places (Agree { s with prev := [] }) c c' → strip (w ++ c) ≠ [] := by
      intro c c' h
      rw [strip_code hw h.text.2]
      intro e
      have := (List.append_eq_nil_iff.1 e).1
      rw [this] at hw
      revert hw; decide
    rw [if_neg (ne h), if_neg (ne h.symm)]
    exact h.code hw
  | @slot c c' d d' hc hd =>
    have hk : s.prev = [] := hk
    have hc : Places (Agree { s with prev := [] }) c c' := hc.mono fun a b hab => hab.agree _
    have hd : Places (Agree { s with prev := [] }) d d' := hd.mono fun a b hab => hab.agree _
    have ne : ∀ {c c' d d' : Str}, Places (Agree { s with prev := [] }) c c' →
        Places (Agree { s with prev := [] }) d d' → strip (c ++ "G85".toList ++ d) ≠ [] := by
      intro c c' d d' hc hd
      rw [strip_of_no_space (by
        rw [List.all_append, List.all_append, places_no_space hc.text.2, places_no_space hd.text.2]; rfl)]
      simp
    unfold PState.parseLine
    simp only [hk, List.nil_append]
    rw [if_neg (ne hc hd), if_neg (ne hc.symm hd.symm)]
    exact slot_same hc hd
  | @select n n' h1 h2 h3 h1' h2' h3' hv =>
    have e : ∀ n : Str, n = n ++ segText [] := fun n => by simp [segText]
    have a : ∀ {n : Str}, n.all isDig = true → ('T' :: n).all toolCh = true := by
      intro n hn
      have := toolLine_all (l := []) hn (by simp)
      rwa [← e] at this
    have c : ∀ {n : Str}, n.all isDig = true → commands ('T' :: n) = [('T', n)] := by
      intro n hn
      have := commands_line (l := []) hn (by simp)
      rwa [← e] at this
    refine toolLine_parse hk (a h2) (a h2') (fun st p => ?_) ?_
    · unfold Tool.fromExcellon
      rw [c h2, c h2']
      simp only [List.foldlM_cons, fromExcellon_number h1 h2 h1' h2' hv]
    · unfold toolSelFrom
      simp only [List.drop_succ_cons, List.drop_zero, if_pos h3, if_pos h3', pyInt_digits' h2 h1, pyInt_digits' h2' h1', hv]
  | @define n n' l l' h1 h2 h1' h2' hv hw =>
    refine toolLine_parse hk (toolLine_all h2 hw.letters) (toolLine_all h2' hw.letters2) (fun st p => ?_) ?_
    · unfold Tool.fromExcellon
      rw [commands_line h2 hw.letters, commands_line h2' hw.letters2]
      simp only [List.foldlM_cons, fromExcellon_number h1 h2 h1' h2' hv]
      obtain ⟨m, hp, hf⟩ := hw.same
      cases Tool.command st { settings := some st, number := 0, plated := p } ('T', n') with
      | error e => rfl
      | ok t =>
        change l.foldlM _ t = l'.foldlM _ t
        rw [commands_perm hp (fun x hx => (hw.letters x hx).1) hw.once]
        exact commands_same hf (fun x hx => (hw.letters x (hp.mem_iff.2 hx)).1) t
    · have key : ∀ {n : Str} {l : List (Char × Str)}, l ≠ [] →
          (∀ x ∈ l, x.1 ∈ ['B', 'C', 'F', 'H', 'S', 'Z'] ∧ x.2.all isVal = true) →
          toolSelFrom ('T' :: (n ++ segText l)) = .error .valueError := by
        intro n l hne hl
        cases l with
        | nil => exact absurd rfl hne
        | cons x l =>
          refine select_letter (isCmd_of_mem (hl x (by simp)).1) ?_
          simp [segText]
      rw [key hw.some_ hw.letters, key hw.some2 hw.letters2]

theorem run_spelling {b : Bool} {a a' : List Str} (h : SameLines b a a') :
    ∀ s : PState, Kept b s → s.run a = s.run a' := by
  induction h with
  | nil => intros; rfl
  | @cons b l l' a a' hl _ ih =>
    intro s hs
    change (s.parseLine (strip l) >>= fun s => s.run a) = (s.parseLine (strip l') >>= fun s => s.run a')
    rw [← hl.parseLine hs]
    cases h1 : s.parseLine (strip l) with
    | error e => rfl
    | ok t => exact ih t (kept_line hs h1)

/-! ## C93 -/

/-- **C93.**  A drill file reads the same however its lines are spelled: with or without plus signs, with any number of
zeros around decimal points, with one to three digits for the number of a tool, with the words of a tool definition in
any order, and with any white space around the lines. -/
theorem C93_spelling_partial {settings : Option FileSettings} {ext : List (ℤ × Tool)} {a a' : List Str}
    (ha : ∀ l ∈ a, '\n' ∉ l) (ha' : ∀ l ∈ a', '\n' ∉ l) (h : SameLines false a a') :
    parseRaw settings ext (unlines a) = parseRaw settings ext (unlines a') := by
  unfold parseRaw
  rw [pyLines_unlines ha, pyLines_unlines ha', run_spelling h (PState.init settings ext) rfl]

/-- The same digits once the format and the omitted zeros are known. -/
inductive PaddedDigits : ℕ × ℕ → String → Str → Str → Prop
  | leading {i d : ℕ} {a : Str} (k : ℕ) : a ≠ [] → a.all isDig = true → k + a.length ≤ i + d →
      PaddedDigits (i, d) "leading" a (List.replicate k '0' ++ a)
  | trailing {i d : ℕ} {a : Str} (k : ℕ) : a ≠ [] → a.all isDig = true → a.length + k ≤ i + d →
      PaddedDigits (i, d) "trailing" a (a ++ List.replicate k '0')

/-- The same number once the format and the omitted zeros are known. -/
inductive Padded (f : ℕ × ℕ) (z : String) : Str → Str → Prop
  | digits {a b : Str} : PaddedDigits f z a b → Padded f z a b
  | minus {a b : Str} : PaddedDigits f z a b → Padded f z ('-' :: a) ('-' :: b)
  | same {a b : Str} : SameNumber a b → Padded f z a b

theorem replicate_all (k : ℕ) : (List.replicate k '0').all isDig = true := by
  rw [List.all_eq_true]
  intro c hc
  rw [List.eq_of_mem_replicate hc]
  rfl

theorem PaddedDigits.digits {f : ℕ × ℕ} {z : String} {a b : Str} (h : PaddedDigits f z a b) :
    (a ≠ [] ∧ a.all isDig = true) ∧ b ≠ [] ∧ b.all isDig = true := by
  cases h with
  | leading k hne ha _ => exact ⟨⟨hne, ha⟩, by simp [hne], by rw [List.all_append, replicate_all, ha]; rfl⟩
  | trailing k hne ha _ => exact ⟨⟨hne, ha⟩, by simp [hne], by rw [List.all_append, replicate_all, ha]; rfl⟩

theorem PaddedDigits.parse {i d : ℕ} {z : String} {a b : Str} (h : PaddedDigits (i, d) z a b) (hi : i ≤ 6) (hd : d ≤ 7) :
    parseGerberValue a (i, d) z = parseGerberValue b (i, d) z := by
  obtain ⟨_, _, hb⟩ := h.digits
  cases h with
  | leading k hne ha hl =>
    rw [C05_parse_leading ha hne hi hd (by omega), C05_parse_leading hb (by simp [hne]) hi hd (by simpa using hl),
      natVal_append]
    simp
  | trailing k hne ha hl =>
    rw [C05_parse_trailing ha hne hi hd (by omega), C05_parse_trailing hb (by simp [hne]) hi hd (by simpa using hl),
      natVal_append]
    congr 1
    simp only [natVal_replicate_zero, List.length_replicate, List.length_append, add_zero]
    push_cast
    rw [mul_assoc, ← zpow_natCast, ← zpow_add₀ (by norm_num)]
    congr 2
    omega

theorem Padded.agree {st : FileSettings} {a b : Str} (h : Padded st.format st.zeroSuppression a b) :
    a.all numCh = true ∧ b.all numCh = true ∧ value st a = value st b := by
  have bad : ∀ {a : Str} (f : ℕ × ℕ) (z : String), '.' ∉ a → badFormat f = true →
      parseGerberValue a f z = .error .valueError := by
    intro a f z ha hf
    unfold parseGerberValue
    rw [if_neg ha, if_pos hf]
  have num : ∀ {a : Str}, a.all isDig = true → a.all numCh = true := fun h => all_mono h fun c => numCh_of_isDig
  have point : ∀ {a : Str}, a.all isDig = true → '.' ∉ a := fun h => digits_not_mem h rfl
  have point' : ∀ {a : Str}, a.all isDig = true → '.' ∉ '-' :: a := fun h => by simp [point h]
  cases h with
  | digits h =>
    obtain ⟨⟨hne, ha⟩, hne', hb⟩ := h.digits
    refine ⟨num ha, num hb, ?_⟩
    unfold value
    generalize st.format = f at h ⊢
    by_cases hf : badFormat f = true
    · rw [bad f _ (point ha) hf, bad f _ (point hb) hf]
    · obtain ⟨i, d⟩ := f
      rw [badFormat_true] at hf
      exact h.parse (by omega) (by omega)
  | minus h =>
    obtain ⟨⟨hne, ha⟩, hne', hb⟩ := h.digits
    refine ⟨by rw [List.all_cons, num ha]; rfl, by rw [List.all_cons, num hb]; rfl, ?_⟩
    unfold value
    generalize st.format = f at h ⊢
    by_cases hf : badFormat f = true
    · rw [bad f _ (point' ha) hf, bad f _ (point' hb) hf]
    · obtain ⟨i, d⟩ := f
      rw [badFormat_true] at hf
      obtain ⟨r, h1, h2, _⟩ := C05_parse_sign ha hne (i := i) (d := d) (by omega) (by omega) st.zeroSuppression
      obtain ⟨r', h1', h2', _⟩ := C05_parse_sign hb hne' (i := i) (d := d) (by omega) (by omega) st.zeroSuppression
      have := h.parse (by omega) (by omega)
      rw [h1, h1'] at this
      injection this with this
      rw [h2, h2', this]
  | same h => exact ⟨h.all.1, h.all.2, h.value st⟩

theorem run_kept (lines : List Str) : ∀ {b : Bool} {s s' : PState}, Kept b s → s.run lines = .ok s' → ∃ b', Kept b' s' := by
  induction lines with
  | nil => intro b s s' hk h; cases h; exact ⟨b, hk⟩
  | cons l lines ih =>
    intro b s s' hk h
    obtain ⟨t, h1, h2⟩ := bindOk h
    exact ih (kept_line hk h1) h2

/-- **C93.**  Once the settings are known, zeros that the format allows to leave out may be written: the rest of the file
reads the same. -/
theorem C93_padding_partial {settings : Option FileSettings} {ext : List (ℤ × Tool)} {before after : List Str} {c c' : Str}
    (hb : ∀ l ∈ before, '\n' ∉ l) (hc : '\n' ∉ c) (hc' : '\n' ∉ c') (ha : ∀ l ∈ after, '\n' ∉ l) {f : XFile}
    (hf : parseRaw settings ext (unlines before) = .ok f)
    (h : Places (Padded f.cam.format f.cam.zeroSuppression) (strip c) (strip c')) :
    parseRaw settings ext (unlines (before ++ c :: after)) = parseRaw settings ext (unlines (before ++ c' :: after)) := by
  unfold parseRaw at hf ⊢
  have hall : ∀ x : Str, '\n' ∉ x → ∀ l ∈ before ++ x :: after, '\n' ∉ l := by
    intro x hx l hl
    rcases List.mem_append.1 hl with h | h
    · exact hb l h
    · rcases List.mem_cons.1 h with rfl | h
      · exact hx
      · exact ha l h
  rw [pyLines_unlines hb] at hf
  rw [pyLines_unlines (hall c hc), pyLines_unlines (hall c' hc')]
  obtain ⟨s, hs, hf⟩ := bindOk hf
  obtain ⟨b, hk⟩ := run_kept before (b := false) (s := PState.init settings ext) rfl hs
  obtain ⟨st, hst, hf⟩ := bindOk hf
  cases hf
  have e : s.parseLine (strip c) = s.parseLine (strip c') := by
    refine Places.parseLine hk (h.mono fun a b hab => ?_)
    have := Padded.agree (st := st) hab
    refine ⟨this.1, this.2.1, fun st' hst' => ?_⟩
    rw [hst] at hst'
    cases hst'
    exact this.2.2
  have r : ∀ x : Str, (PState.init settings ext).run (before ++ x :: after) =
      s.parseLine (strip x) >>= fun s => s.run after := by
    intro x
    unfold PState.run at hs ⊢
    rw [List.foldlM_append, hs]
    rfl
  rw [r, r, e]

/-! ## Repeated holes -/

open Verif.Py.Re in
theorem number_first {w b : Str} (hw : IsNumber w) (hb : Stops b) : First reStep (w ++ b) (w, [], b) := by
  obtain ⟨sign, a, f, rfl, hs, ha, hf⟩ := hw
  have hp : ∀ c t, f ++ b = c :: t → isDig c = false := by
    intro c t h
    rcases hf with rfl | ⟨f, rfl, _⟩
    · exact (hb c t h).1
    · cases h; rfl
  have tail : First (cat [.star isDig, opt (Re.lit '.'), .star isDig]) (a ++ (f ++ b)) (a ++ f, [], b) := by
    have h1 := First.star_append (p := isDig) ha hp
    rcases hf with rfl | ⟨f, rfl, hf⟩
    · have := tail_first ha hb
      simpa using this
    · have h2 : First (opt (Re.lit '.')) ('.' :: f ++ b) (['.'], [], f ++ b) := First.opt_some (First.lit (c := '.'))
      have h3 := First.star_append (p := isDig) hf fun c s h => (hb c s h).1
      have := First.seq h1 (First.seq h2 h3)
      simpa [cat] using this
  have e : sign ++ (a ++ f) ++ b = sign ++ (a ++ (f ++ b)) := by simp
  rw [e]
  have hs' : sign = [] ∨ sign = ['+'] ∨ sign = ['-'] := by simpa using hs
  rcases hs' with rfl | rfl | rfl
  · refine First.seq (r := a ++ (f ++ b)) (First.opt_none ?_) tail
    show Fails _ (a ++ (f ++ b))
    cases h : a ++ (f ++ b) with
    | nil => exact Fails.chr_nil
    | cons c t =>
      refine Fails.chr ?_
      cases a with
      | cons d a =>
        cases h
        simp only [List.all_cons, Bool.and_eq_true] at ha
        exact Gerber.not_sign_of_dig ha.1
      | nil =>
        rcases hf with rfl | ⟨f, rfl, _⟩
        · exact (hb c t h).2.2
        · cases h; rfl
  · exact First.seq (First.opt_some (First.chr (c := '+') (by decide))) tail
  · exact First.seq (First.opt_some (First.chr (c := '-') (by decide))) tail

/-- Optional numbers. -/
def OptNumber (w : Option Str) : Prop := ∀ v, w = some v → IsNumber v

open Verif.Py.Re in
theorem repeat_numbers {ds : Str} (hd : ds.all isDig = true) {wx wy : Option Str} (hx : OptNumber wx) (hy : OptNumber wy) :
    reRepeat.pyMatch ('R' :: (ds ++ (coordText wx none ++ coordText none wy))) =
      some ([("rcount", ds), ("xdelta", wx.getD []), ("ydelta", wy.getD [])], []) := by
  have e1 : Stops (coordText none wy) := by
    intro c t h
    cases wy with
    | none => cases h
    | some w => cases h; exact ⟨by decide, by decide, by decide⟩
  have n0 : IsNumber [] := .digits rfl
  have hX : First (cat [opt (Re.lit 'X'), opt (.grp "xdelta" reStep)])
      (coordText wx none ++ coordText none wy)
      (coordText wx none, [("xdelta", wx.getD [])], coordText none wy) := by
    cases wx with
    | none =>
      have h1 : First (opt (Re.lit 'X')) (coordText none wy) ([], [], coordText none wy) := by
        refine First.opt_none ?_
        cases wy with
        | none => exact Fails.lit_nil
        | some w => exact Fails.lit (by decide)
      exact First.seq h1 (First.opt_some (First.grp (number_first n0 e1)))
    | some w =>
      exact First.seq (First.opt_some (First.lit (c := 'X')))
        (First.opt_some (First.grp (number_first (hx w rfl) e1)))
  have hY : First (cat [opt (Re.lit 'Y'), opt (.grp "ydelta" reStep)]) (coordText none wy)
      (coordText none wy, [("ydelta", wy.getD [])], []) := by
    cases wy with
    | none =>
      exact First.seq (First.opt_none Fails.lit_nil)
        (First.opt_some (First.grp (number_first (b := []) n0 (fun c t h => by cases h))))
    | some w =>
      have h2 := number_first (w := w) (b := []) (hy w rfl) (fun c t h => by cases h)
      rw [List.append_nil] at h2
      exact First.seq (First.opt_some (First.lit (c := 'Y'))) (First.opt_some (First.grp h2))
  have hD : First (.grp "rcount" (.star isDig)) (ds ++ (coordText wx none ++ coordText none wy))
      (ds, [("rcount", ds)], coordText wx none ++ coordText none wy) := by
    refine First.grp (First.star_append hd ?_)
    intro c t h
    cases wx with
    | none => exact (e1 c t h).1
    | some w => cases h; decide
  have assoc : ∀ {a b c d : Re} {s : Str} {m : M}, First (.seq (.seq a b) (.seq c d)) s m →
      First (.seq a (.seq b (.seq c d))) s m := by
    intro a b c d s m h
    unfold First at *
    rw [← h]
    simp only [Re.run, List.flatMap_map, List.map_flatMap, List.flatMap_assoc, List.map_map,
      List.append_assoc, Function.comp_def]
  have h := First.seq (First.lit (c := 'R')) (First.seq hD (assoc (First.seq hX hY)))
  exact First.pyMatch h

/-- The same optional step. -/
def SameStep (a b : Option Str) : Prop :=
  (a = none ∧ b = none) ∨ ∃ v w, a = some v ∧ b = some w ∧ v ≠ [] ∧ w ≠ [] ∧ SameNumber v w

theorem SameStep.number {a b : Option Str} (h : SameStep a b) : OptNumber a ∧ OptNumber b := by
  rcases h with ⟨rfl, rfl⟩ | ⟨v, w, rfl, rfl, _, _, h⟩
  · exact ⟨fun _ h => (nomatch h), fun _ h => (nomatch h)⟩
  · exact ⟨fun _ e => by cases e; exact h.number.1, fun _ e => by cases e; exact h.number.2⟩

theorem SameStep.captured {a b : Option Str} (h : SameStep a b) (st : FileSettings) {cs cs' : Caps} {n : String}
    (hg : cs.get n = some (a.getD [])) (hg' : cs'.get n = some (b.getD [])) : captured st cs n = captured st cs' n := by
  unfold Verif.Excellon.captured
  rw [hg, hg']
  rcases h with ⟨rfl, rfl⟩ | ⟨v, w, rfl, rfl, hv, hw, h⟩
  · rfl
  · cases v with
    | nil => exact absurd rfl hv
    | cons c v =>
      cases w with
      | nil => exact absurd rfl hw
      | cons d w => simp only [Option.getD_some, h.value st]

/-- The text of a repeat command. -/
def repText (n : Str) (x y : Option Str) : Str := 'R' :: (n ++ (coordText x none ++ coordText none y))

theorem rep_same {n n' : Str} (hd : n.all isDig = true) (hne : n ≠ []) (hd' : n'.all isDig = true) (hne' : n' ≠ [])
    (hv : natVal n = natVal n') {x x' y y' : Option Str} (hx : SameStep x x') (hy : SameStep y y') (st : FileSettings) :
    repFrom (repText n x y) st = repFrom (repText n' x' y') st := by
  unfold repFrom repText
  rw [repeat_numbers hd hx.number.1 hy.number.1, repeat_numbers hd' hx.number.2 hy.number.2]
  have e1 := hx.captured st (cs := [("rcount", n), ("xdelta", x.getD []), ("ydelta", y.getD [])])
    (cs' := [("rcount", n'), ("xdelta", x'.getD []), ("ydelta", y'.getD [])]) (n := "xdelta") rfl rfl
  have e2 := hy.captured st (cs := [("rcount", n), ("xdelta", x.getD []), ("ydelta", y.getD [])])
    (cs' := [("rcount", n'), ("xdelta", x'.getD []), ("ydelta", y'.getD [])]) (n := "ydelta") rfl rfl
  have g : ∀ m w z : Str, (Caps.get [("rcount", m), ("xdelta", w), ("ydelta", z)] "rcount").getD [] = m :=
    fun _ _ _ => rfl
  simp only [g, pyInt_digits' hd hne, pyInt_digits' hd' hne', hv, e1, e2]

/-- Characters of a repeat command. -/
def repCh (c : Char) : Bool := placeCh c || c == 'R'

theorem repText_all {n : Str} (hd : n.all isDig = true) {x y : Option Str} (hx : OptNumber x) (hy : OptNumber y) :
    (repText n x y).all repCh = true := by
  have m : ∀ {a : Str}, a.all numCh = true → a.all repCh = true :=
    fun h => all_mono h fun c hc => by simp [repCh, placeCh, hc]
  have h1 : n.all repCh = true := m (all_mono hd fun c => numCh_of_isDig)
  have h2 : (coordText x none).all repCh = true := by
    cases x with
    | none => rfl
    | some v => rw [coordText, List.all_cons, m (hx v rfl).all]; rfl
  have h3 : (coordText none y).all repCh = true := by
    cases y with
    | none => rfl
    | some v => rw [coordText, List.all_cons, m (hy v rfl).all]; rfl
  rw [repText, List.all_cons, List.all_append, List.all_append, h1, h2, h3]
  rfl

theorem repText_dispatch {n : Str} (hd : n.all isDig = true) {x y : Option Str} (hx : OptNumber x) (hy : OptNumber y)
    (s : PState) : strip (repText n x y) = repText n x y ∧ s.dispatch (repText n x y) =
      if s.state = "HEADER" then .ok (s.add (.unknown (repText n x y))) else s.repeatLine (repText n x y) := by
  have ha := repText_all hd hx hy
  constructor
  · refine strip_of_no_space (all_mono ha fun c hc => ?_)
    simp only [repCh, Bool.or_eq_true, beq_iff_eq] at hc
    rcases hc with hc | rfl
    · rw [placeCh_not_space hc]; rfl
    · rfl
  · have hI : isInfix "INCH".toList (repText n x y) = false := isInfix_none (not_mem_of_all ha (by decide))
    have hM : isInfix "METRIC".toList (repText n x y) = false := isInfix_none (not_mem_of_all ha (by decide))
    unfold repText at hI hM ⊢
    rw [dispatch_tools (by decide) hI hM]
    unfold PState.dispatchTools
    have hT : startsWith "T".toList ('R' :: (n ++ (coordText x none ++ coordText none y))) = false := rfl
    have hR : startsWith "R".toList ('R' :: (n ++ (coordText x none ++ coordText none y))) = true := rfl
    have hX : startsWith "X".toList ('R' :: (n ++ (coordText x none ++ coordText none y))) = false := rfl
    have hY : startsWith "Y".toList ('R' :: (n ++ (coordText x none ++ coordText none y))) = false := rfl
    by_cases hs : s.state = "HEADER"
    · simp only [hT, hR, hX, hY, hs, Bool.false_and, Bool.true_and, Bool.or_self, ne_eq, not_true_eq_false, decide_false,
        Bool.false_eq_true, if_false, if_true]
    · simp only [hT, hR, hs, Bool.false_and, Bool.true_and, ne_eq, not_false_eq_true, decide_true, Bool.false_eq_true,
        if_false, if_true]

theorem run_waits (lines : List Str) : ∀ {b : Bool} {s s' : PState}, Kept b s → s.run lines = .ok s' →
    Kept (lines.foldl waits b) s' := by
  induction lines with
  | nil => intro b s s' hk h; cases h; exact hk
  | cons l lines ih =>
    intro b s s' hk h
    obtain ⟨t, h1, h2⟩ := bindOk h
    exact ih (kept_line hk h1) h2

/-- **C93** (repeated holes).  Wherever no bare `G00` or `G01` waits for coordinates, a repeat command does the same
however its count and its steps are spelled: the same holes, tools and settings, or the same error. -/
theorem C93_repeat_partial {settings : Option FileSettings} {ext : List (ℤ × Tool)} {before after : List Str} {c c' : Str}
    (hb : ∀ l ∈ before, '\n' ∉ l) (hc : '\n' ∉ c) (hc' : '\n' ∉ c') (ha : ∀ l ∈ after, '\n' ∉ l)
    (hw : before.foldl waits false = false) {n n' : Str} {x x' y y' : Option Str}
    (hd : n.all isDig = true) (hne : n ≠ []) (hd' : n'.all isDig = true) (hne' : n' ≠ []) (hv : natVal n = natVal n')
    (hx : SameStep x x') (hy : SameStep y y') (e : strip c = repText n x y) (e' : strip c' = repText n' x' y') :
    (parseRaw settings ext (unlines (before ++ c :: after))).map XFile.work =
      (parseRaw settings ext (unlines (before ++ c' :: after))).map XFile.work := by
  have hall : ∀ x : Str, '\n' ∉ x → ∀ l ∈ before ++ x :: after, '\n' ∉ l := by
    intro x hx l hl
    rcases List.mem_append.1 hl with h | h
    · exact hb l h
    · rcases List.mem_cons.1 h with rfl | h
      · exact hx
      · exact ha l h
  refine same_work (hall c hc) (hall c' hc') ?_
  have r : ∀ x : Str, (PState.init settings ext).run (before ++ x :: after) =
      (PState.init settings ext).run before >>= fun s => s.parseLine (strip x) >>= fun s => s.run after := by
    intro x
    unfold PState.run
    rw [List.foldlM_append]
    rfl
  rw [r, r]
  cases hs : (PState.init settings ext).run before with
  | error e => rfl
  | ok s =>
    have hk := run_waits before (b := false) (s := PState.init settings ext) rfl hs
    rw [hw] at hk
    have hk : s.prev = [] := hk
    change (s.parseLine (strip c) >>= fun s => s.run after).map _ = (s.parseLine (strip c') >>= fun s => s.run after).map _
    have line : ∀ {n : Str} {x y : Option Str}, n.all isDig = true → OptNumber x → OptNumber y →
        s.parseLine (repText n x y) = if s.state = "HEADER" then .ok (s.add (.unknown (repText n x y))) else
          s.repeatLine (repText n x y) := by
      intro n x y hd hx hy
      unfold PState.parseLine
      have es : ({ s with prev := [] } : PState) = s := by rw [← hk]
      simp only [hk, List.nil_append, es]
      rw [(repText_dispatch hd hx hy s).1, if_neg (by simp [repText]), (repText_dispatch hd hx hy s).2]
    rw [e, e', line hd hx.number.1 hy.number.1, line hd' hx.number.2 hy.number.2]
    by_cases hh : s.state = "HEADER"
    · rw [if_pos hh, if_pos hh]
      have := blind_run after (s.add (.unknown (repText n x y))) (s.statements ++ [⟨"inch", .unknown (repText n' x' y')⟩])
      exact this.symm
    · rw [if_neg hh, if_neg hh]
      have : s.repeatLine (repText n x y) = s.repeatLine (repText n' x' y') := by
        unfold PState.repeatLine
        cases s.settings with
        | error e => rfl
        | ok st => simp only [bind, Except.bind, rep_same hd hne hd' hne' hv hx hy st]
      rw [this]

-- the hypotheses of C93_repeat_partial
example : strip " R4X+01".toList = repText "4".toList (some "+01".toList) none ∧
    strip "R04X01 ".toList = repText "04".toList (some "01".toList) none ∧
    SameStep (some "+01".toList) (some "01".toList) ∧ natVal "4".toList = natVal "04".toList :=
  ⟨by decide +kernel, by decide +kernel, .inr ⟨_, _, rfl, rfl, by decide, by decide, .unplus (a := "01".toList) (by decide)⟩,
    by decide +kernel⟩

/-! ## Examples and violations -/

-- the hypothesis of C93_spelling_partial
example : SameLines false (["M48", "T1C0.02F200", "%", "T1", "X+1Y1.5", "G00", "Y2."].map String.toList)
    (["M48 ", "T01F200C.020", " %", "T001", "X1Y+01.50 ", "G00", "Y2.0"].map String.toList) := by
  refine .cons ?_ (.cons ?_ (.cons ?_ (.cons ?_ (.cons ?_ (.cons ?_ (.cons ?_ (.nil _)))))))
  · rw [show strip "M48 ".toList = strip "M48".toList by decide +kernel]; exact .same _ _
  · rw [show strip "T1C0.02F200".toList = 'T' :: ("1".toList ++ segText [('C', "0.02".toList), ('F', "200".toList)]) by
        decide +kernel,
      show strip "T01F200C.020".toList = 'T' :: ("01".toList ++ segText [('F', "200".toList), ('C', ".020".toList)]) by
        decide +kernel]
    refine .define (by decide) (by decide) (by decide) (by decide) (by decide) ⟨by decide, by decide, by decide, by decide,
      _, List.Perm.swap _ _ _, .cons ⟨rfl, .same (.digits (by decide))⟩ (.cons ⟨rfl, ?_⟩ .nil)⟩
    have h1 := Written.plain (a := "0".toList) (b := "02".toList) (by decide) (by decide) (by decide)
    have h2 := Written.plain (a := []) (b := "020".toList) (by decide) (by decide) (by decide)
    refine .point h1 ?_
    have e : (natVal "0".toList : ℚ) + (natVal "02".toList : ℚ) / 10 ^ "02".toList.length =
        (natVal [] : ℚ) + (natVal "020".toList : ℚ) / 10 ^ "020".toList.length := by decide +kernel
    rw [e]
    exact h2
  · rw [show strip " %".toList = strip "%".toList by decide +kernel]; exact .same _ _
  · exact .select (n := "1".toList) (n' := "001".toList) (by decide) (by decide) (by decide) (by decide) (by decide)
      (by decide) (by decide)
  · rw [show strip "X+1Y1.5".toList = 'X' :: ("+1".toList ++ 'Y' :: "1.5".toList) by decide +kernel,
      show strip "X1Y+01.50 ".toList = 'X' :: ("1".toList ++ 'Y' :: "+01.50".toList) by decide +kernel]
    refine .place _ (.xy (.unplus (a := "1".toList) (by decide)) ?_)
    have h1 := Written.plain (a := "1".toList) (b := "5".toList) (by decide) (by decide) (by decide)
    have h2 := Written.plus (a := "01".toList) (b := "50".toList) (by decide) (by decide) (by decide)
    refine .point h1 ?_
    have e : (natVal "1".toList : ℚ) + (natVal "5".toList : ℚ) / 10 ^ "5".toList.length =
        (natVal "01".toList : ℚ) + (natVal "50".toList : ℚ) / 10 ^ "50".toList.length := by decide +kernel
    rw [e]
    exact h2
  · exact .same _ _
  · rw [show strip "Y2.".toList = 'Y' :: "2.".toList by decide +kernel,
      show strip "Y2.0".toList = 'Y' :: "2.0".toList by decide +kernel]
    refine .place _ (.y ?_)
    have h1 := Written.plain (a := "2".toList) (b := []) (by decide) (by decide) (by decide)
    have h2 := Written.plain (a := "2".toList) (b := "0".toList) (by decide) (by decide) (by decide)
    refine .point h1 ?_
    have e : (natVal "2".toList : ℚ) + (natVal [] : ℚ) / 10 ^ ([] : Str).length =
        (natVal "2".toList : ℚ) + (natVal "0".toList : ℚ) / 10 ^ "0".toList.length := by decide +kernel
    rw [e]
    exact h2

-- the hypotheses of C93_padding_partial
example : ∃ f, parseRaw none [] (unlines (["M48", "INCH,LZ", "T1C0.02", "%", "T1"].map String.toList)) = .ok f ∧
    Places (Padded f.cam.format f.cam.zeroSuppression) (strip "X-015Y1".toList) (strip "X-01500Y10".toList) := by
  have h : (parseRaw none [] (unlines (["M48", "INCH,LZ", "T1C0.02", "%", "T1"].map String.toList))).map
      (fun f => (f.cam.format, f.cam.zeroSuppression)) = .ok ((2, 4), "trailing") := by decide +kernel
  cases hf : parseRaw none [] (unlines (["M48", "INCH,LZ", "T1C0.02", "%", "T1"].map String.toList)) with
  | error e => rw [hf] at h; cases h
  | ok f =>
    rw [hf] at h
    injection h with h
    have h1 : f.cam.format = (2, 4) := congrArg Prod.fst h
    have h2 : f.cam.zeroSuppression = "trailing" := congrArg Prod.snd h
    refine ⟨f, rfl, ?_⟩
    rw [h1, h2, show strip "X-015Y1".toList = 'X' :: ("-015".toList ++ 'Y' :: "1".toList) by decide +kernel,
      show strip "X-01500Y10".toList = 'X' :: ("-01500".toList ++ 'Y' :: "10".toList) by decide +kernel]
    exact .xy (.minus (.trailing (a := "015".toList) 2 (by decide) (by decide) (by decide)))
      (.digits (.trailing (a := "1".toList) 1 (by decide) (by decide) (by decide)))

/-- **C93 fails** for tool numbers of four digits: `T0002` selects no tool, and the hole is drilled with the tool before. -/
theorem C93_four_digits_violated :
    madeBy ["M48", "INCH,LZ", "T1C0.02", "T2C0.03", "%", "T1", "X01Y01", "T2", "X02Y01", "M30"] =
      some [.hole (some 0) (1, 1), .hole (some 1) (2, 1)] ∧
    madeBy ["M48", "INCH,LZ", "T1C0.02", "T2C0.03", "%", "T1", "X01Y01", "T0002", "X02Y01", "M30"] =
      some [.hole (some 0) (1, 1), .hole (some 0) (2, 1)] := by
  decide +kernel

/-- **C93 fails** for white space within a line: a space before the `Y` counts as a digit. -/
theorem C93_space_violated :
    madeBy ["M48", "INCH,TZ", "T1C0.02", "%", "T1", "X10Y20", "M30"] = some [.hole (some 0) (1 / 1000, 2 / 1000)] ∧
    madeBy ["M48", "INCH,TZ", "T1C0.02", "%", "T1", "X10 Y20", "M30"] = some [.hole (some 0) (1 / 100, 2 / 1000)] := by
  decide +kernel

/-- **C93 fails** for the order of coordinates: `Y` before `X` can not be read. -/
theorem C93_order_violated :
    parseRaw none [] (prog ["M48", "INCH,LZ", "T1C0.02", "%", "T1", "Y02X01", "M30"]) = .error .valueError := by
  decide +kernel

/-- **C93 fails** for zeros beyond the format: with leading zeros left out, a further zero in front moves the point. -/
theorem C93_long_violated :
    madeBy ["M48", "INCH,TZ", "T1C0.02", "%", "T1", "X010000Y0", "M30"] = some [.hole (some 0) (1, 0)] ∧
    madeBy ["M48", "INCH,TZ", "T1C0.02", "%", "T1", "X0010000Y0", "M30"] = some [.hole (some 0) (1 / 10, 0)] := by
  decide +kernel

end Verif.Excellon
