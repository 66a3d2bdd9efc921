import Verif.Model.Ipc
import Verif.Lemmas.Capture
import Verif.Lemmas.ExcellonWrite
import Mathlib.Data.List.TakeWhile

/-!
# C39, C40: continuation lines and adjacency records of netlists
-/

namespace Verif.Ipc

open Verif.Py

/-! ## Specification -/

/-- A logical line cut into pieces: the first piece, and the further ones with the two free
characters of the marker `0..` that precedes each. -/
structure Logical where
  first : Str
  conts : List ((Char × Char) × Str)

/-- The line before it was cut. -/
def Logical.whole (l : Logical) : Str := l.first ++ (l.conts.map (·.2)).flatten

/-- The physical lines. -/
def Logical.physical (l : Logical) : List Str :=
  l.first :: l.conts.map fun c => '0' :: c.1.1 :: c.1.2 :: c.2

/-- Lines to text, with the given line ends. -/
def text (eol : Str) (ls : List Str) : Str := ls.flatMap (· ++ eol)

/-- The two line ends. -/
def IsEol (eol : Str) : Prop := eol = ['\n'] ∨ eol = ['\r', '\n']

/-- A text without line breaks. -/
def NoBreak (s : Str) : Prop := ∀ c ∈ s, c ≠ '\r' ∧ isBreak c = false

/-- The pieces are proper: no line breaks inside; the line does not look like a continuation; no
piece that is followed by another one ends in white space; an empty line is not cut. -/
structure Logical.Good (l : Logical) : Prop where
  first : NoBreak l.first
  conts : ∀ c ∈ l.conts, NoBreak ('0' :: c.1.1 :: c.1.2 :: c.2)
  head : l.first.head? ≠ some '0'
  nonempty : l.first = [] → l.conts = []
  kept : ∀ c ∈ l.conts.dropLast, ∀ d, c.2.getLast? = some d → isSpace d = false

/-! ## Lines of a text -/

theorem splitLinesGo_noBreak {s : Str} (h : NoBreak s) (cur r : Str) :
    splitLinesGo cur (s ++ r) = splitLinesGo (cur ++ s) r := by
  induction s generalizing cur with
  | nil => simp
  | cons c s ih =>
    have hc := h c (by simp)
    have : splitLinesGo cur (c :: (s ++ r)) = splitLinesGo (cur ++ [c]) (s ++ r) := by
      rw [splitLinesGo]
      · rw [if_neg (by simp [hc.1, hc.2])]
      · intro t ht
        exact (hc.1 ht).elim
    rw [List.cons_append, this, ih (fun d hd => h d (by simp [hd]))]
    simp

theorem splitLines_text {eol : Str} (he : IsEol eol) {ls : List Str} (h : ∀ l ∈ ls, NoBreak l) :
    splitLines (text eol ls) = ls := by
  have : ∀ r, splitLinesGo [] (text eol ls ++ r) = ls ++ splitLinesGo [] r := by
    induction ls with
    | nil => intro r; rfl
    | cons l ls ih =>
      intro r
      have hl := h l (by simp)
      have ih := ih fun x hx => h x (by simp [hx])
      simp only [text, List.flatMap_cons, List.append_assoc]
      rw [splitLinesGo_noBreak hl, List.nil_append]
      have : splitLinesGo l (eol ++ (ls.flatMap (· ++ eol) ++ r)) =
          l :: splitLinesGo [] (text eol ls ++ r) := by
        rcases he with he | he
        · subst he
          rw [List.singleton_append, splitLinesGo]
          · rw [if_pos (Or.inr (by decide))]; rfl
          · intro t ht; exact absurd ht (by decide)
        · subst he
          rw [List.cons_append, List.cons_append, splitLinesGo]
          rfl
      rw [this, ih]
      rfl
  have := this []
  rw [List.append_nil] at this
  unfold splitLines
  rw [this]
  simp [splitLinesGo]

/-! ## Joining -/

/-- The line the parser puts together. -/
def Logical.joined (l : Logical) : Str :=
  l.first ++ (l.conts.map fun c => rstripBy isSpace c.2).flatten

theorem rstrip_noBreak {s : Str} (h : NoBreak s) :
    rstripBy (fun c => c == '\r' || c == '\n') s = s := by
  unfold rstripBy
  have : s.reverse.dropWhile (fun c => c == '\r' || c == '\n') = s.reverse := by
    cases hr : s.reverse with
    | nil => rfl
    | cons c t =>
      have hc := h c (by rw [← List.mem_reverse, hr]; simp)
      have : c ≠ '\n' := by
        rintro rfl
        exact absurd hc.2 (by decide)
      rw [List.dropWhile_cons_of_neg (by simp [hc.1, this])]
  rw [this, List.reverse_reverse]

theorem mem_rstripBy {p : Char → Bool} {s : Str} {c : Char} (h : c ∈ rstripBy p s) : c ∈ s := by
  unfold rstripBy at h
  rw [List.mem_reverse] at h
  exact List.mem_reverse.1 ((List.dropWhile_sublist _).mem h)

theorem step_conts (p : Parser) (conts : List ((Char × Char) × Str))
    (h : ∀ c ∈ conts, NoBreak ('0' :: c.1.1 :: c.1.2 :: c.2)) (old : Str) (ho : old ≠ [])
    (hb : NoBreak old) :
    (conts.map fun c => '0' :: c.1.1 :: c.1.2 :: c.2).foldlM step (p, old) =
      .ok (p, old ++ (conts.map fun c => rstripBy isSpace c.2).flatten) := by
  induction conts generalizing old with
  | nil => simp [pure, Except.pure]
  | cons c conts ih =>
    rw [List.map_cons, List.foldlM_cons]
    have : step (p, old) ('0' :: c.1.1 :: c.1.2 :: c.2) =
        .ok (p, old ++ rstripBy isSpace c.2) := by
      simp only [step, ne_eq, ho, not_false_eq_true, if_true, List.drop_succ_cons, List.drop_zero,
        rstrip_noBreak hb]
    rw [this]
    simp only [bind, Except.bind]
    rw [ih (fun d hd => h d (by simp [hd])) (old ++ rstripBy isSpace c.2) (by simp [ho])]
    · simp
    · intro d hd
      rcases List.mem_append.1 hd with hd | hd
      · exact hb d hd
      · exact h c (by simp) d (by simp [mem_rstripBy hd])

theorem step_first (p : Parser) (old line : Str) (h : line.head? ≠ some '0') :
    step (p, old) line = (p.parseLine old).bind fun q => .ok (q, line) := by
  unfold step
  by_cases ho : old = []
  · simp [ho, Parser.parseLine, Except.bind]
  · simp only [ne_eq, ho, not_false_eq_true, if_true]
    match line, h with
    | [], _ => rfl
    | c :: t, h =>
      have hc : c ≠ '0' := by simpa using h
      split
      · rename_i heq
        exact absurd (List.cons.inj heq).1 hc
      · rfl

/-- The parser sees the joined lines. -/
theorem run_physical (ls : List Logical) (h : ∀ l ∈ ls, l.Good) (p : Parser) (old : Str) :
    ((ls.flatMap Logical.physical).foldlM step (p, old)).bind (fun st => st.1.parseLine st.2) =
      (old :: ls.map Logical.joined).foldlM Parser.parseLine p := by
  induction ls generalizing p old with
  | nil =>
    simp only [List.flatMap_nil, List.foldlM_nil, pure, Except.pure, Except.bind, List.map_nil,
      List.foldlM_cons, bind]
    cases p.parseLine old <;> rfl
  | cons l ls ih =>
    have hl := h l (by simp)
    rw [List.flatMap_cons, Logical.physical, List.cons_append, List.foldlM_cons,
      step_first p old _ hl.head]
    rw [List.map_cons, List.foldlM_cons]
    cases hp : p.parseLine old with
    | error e => rfl
    | ok q =>
      simp only [Except.bind, bind]
      rw [List.foldlM_append]
      have hc : (l.conts.map fun c => '0' :: c.1.1 :: c.1.2 :: c.2).foldlM step (q, l.first) =
          .ok (q, l.joined) := by
        by_cases hf : l.first = []
        · have : l.conts = [] := hl.nonempty hf
          simp [this, Logical.joined, pure, Except.pure]
        · exact step_conts q l.conts hl.conts l.first hf hl.first
      rw [hc]
      simp only [bind, Except.bind]
      have := ih (fun x hx => h x (by simp [hx])) q l.joined
      simp only [Except.bind] at this
      rw [this]

/-! ## Trailing white space does not matter -/

theorem rstrip_eq_append (s : Str) :
    ∃ w, s = rstripBy isSpace s ++ w ∧ ∀ c ∈ w, isSpace c := by
  refine ⟨(s.reverse.takeWhile isSpace).reverse, ?_, ?_⟩
  · unfold rstripBy
    rw [← List.reverse_append, List.takeWhile_append_dropWhile, List.reverse_reverse]
  · intro c hc
    rw [List.mem_reverse] at hc
    exact List.mem_takeWhile_imp hc

theorem rstrip_spaces {s w : Str} (h : ∀ c ∈ w, isSpace c) :
    rstripBy isSpace (s ++ w) = rstripBy isSpace s := by
  unfold rstripBy
  rw [List.reverse_append, List.dropWhile_append_of_pos]
  intro c hc
  exact h c (List.mem_reverse.1 hc)

theorem strip_spaces {s w : Str} (h : ∀ c ∈ w, isSpace c) : strip (s ++ w) = strip s := by
  unfold strip stripBy lstripBy
  by_cases hs : ∀ c ∈ s, isSpace c
  · rw [List.dropWhile_append_of_pos hs, List.dropWhile_eq_nil_iff.2 h,
      List.dropWhile_eq_nil_iff.2 hs]
  · have : (s ++ w).dropWhile isSpace = s.dropWhile isSpace ++ w := by
      rw [List.dropWhile_append]
      have : (s.dropWhile isSpace).isEmpty = false := by
        rw [List.isEmpty_eq_false_iff]
        intro hn
        exact hs (List.dropWhile_eq_nil_iff.1 hn)
      rw [this]
      simp
    rw [this, rstrip_spaces h]

theorem words_spaces {s w : Str} (h : ∀ c ∈ w, isSpace c) : words (s ++ w) = words s := by
  have one : ∀ (s : Str) (c : Char), isSpace c → words (s ++ [c]) = words s := by
    intro s c hc
    unfold words
    rw [List.splitOnP_append_cons s [] hc]
    simp
  induction w using List.reverseRecOn with
  | nil => simp
  | append_singleton w c ih =>
    rw [← List.append_assoc, one _ c (h c (by simp)), ih fun d hd => h d (by simp [hd])]

theorem drop_spaces (n : ℕ) {s w : Str} (h : ∀ c ∈ w, isSpace c) :
    ∃ v : Str, (s ++ w).drop n = s.drop n ++ v ∧ ∀ c ∈ v, isSpace c :=
  ⟨w.drop (n - s.length), List.drop_append, fun c hc => h c (List.mem_of_mem_drop hc)⟩

theorem slice_spaces (a b : ℕ) {s w : Str} (h : ∀ c ∈ w, isSpace c) :
    ∃ v : Str, slice a b (s ++ w) = slice a b s ++ v ∧ ∀ c ∈ v, isSpace c := by
  unfold slice
  rw [List.take_append]
  exact drop_spaces a fun c hc => h c (List.mem_of_mem_take hc)

theorem pyInt_spaces {s w : Str} (h : ∀ c ∈ w, isSpace c) : pyInt (s ++ w) = pyInt s := by
  unfold pyInt
  rw [strip_spaces h]

/-- A code without white space at the beginning of a line. -/
theorem slice_code {s w : Str} (h : ∀ c ∈ w, isSpace c) (a b c : Char) (hc : isSpace c = false) :
    slice 0 3 (s ++ w) = [a, b, c] ↔ slice 0 3 s = [a, b, c] := by
  unfold slice
  simp only [List.drop_zero]
  constructor
  · intro he
    rw [List.take_append] at he
    by_cases hs : 3 ≤ s.length
    · rw [Nat.sub_eq_zero_of_le hs] at he
      simpa using he
    · exfalso
      have h3 : (w.take (3 - s.length)) ≠ [] := by
        intro hn
        rw [hn, List.append_nil] at he
        have := congrArg List.length he
        simp at this
        omega
      have hl := List.getLast?_append_of_ne_nil (s.take 3) h3
      rw [he] at hl
      have hm : c ∈ w.take (3 - s.length) := by
        exact List.mem_of_getLast? (hl.symm.trans rfl)
      rw [h c (List.mem_of_mem_take hm)] at hc
      cases hc
  · intro he
    have hs : 3 ≤ s.length := by
      have := congrArg List.length he
      simp at this
      omega
    rw [List.take_append_of_le_length hs]
    exact he

theorem parseLine_spaces (p : Parser) {s w : Str} (h : ∀ c ∈ w, isSpace c) :
    p.parseLine (s ++ w) = p.parseLine s := by
  cases s with
  | nil =>
    cases w with
    | nil => rfl
    | cons c w =>
      have hc := h c (by simp)
      have e : ∀ x, isSpace x = false → c ≠ x := by
        rintro x hx rfl
        rw [hx] at hc; cases hc
      have sl : ∀ a b d, isSpace a = false → slice 0 3 (c :: w) ≠ [a, b, d] := by
        intro a b d ha hs
        unfold slice at hs
        simp only [List.take_succ_cons, List.drop_zero] at hs
        exact e a ha (List.cons.inj hs).1
      have sl' := fun b d => sl '3' b d (by decide)
      simp [Parser.parseLine, e 'C' (by decide), e 'P' (by decide), e '9' (by decide), sl']
  | cons c s =>
    have code := fun a b d hd => slice_code (s := c :: s) h a b d hd
    have c7 := fun a b => code a b '7' (by decide)
    have c8 := fun a b => code a b '8' (by decide)
    have c9 := fun a b => code a b '9' (by decide)
    have code' : (slice 0 3 (c :: s ++ w) ∈ [['3', '1', '7'], ['3', '2', '7'], ['3', '6', '7']]) ↔
        slice 0 3 (c :: s) ∈ [['3', '1', '7'], ['3', '2', '7'], ['3', '6', '7']] := by
      simp only [List.mem_cons, c7, List.not_mem_nil]
    have e1 : paramFromLine (c :: s ++ w) = paramFromLine (c :: s) := by
      obtain ⟨v, hv, hs⟩ := drop_spaces 2 (s := c :: s) h
      unfold paramFromLine
      rw [hv, words_spaces hs]
      rfl
    have e2 : ∀ u a, TestRec.fromLine (c :: s ++ w) u a = TestRec.fromLine (c :: s) u a := by
      intro u a
      unfold TestRec.fromLine
      rw [strip_spaces h]
    have e3 : ∀ u, conductorFromLine (c :: s ++ w) u = conductorFromLine (c :: s) u := by
      intro u
      obtain ⟨v1, hv1, hs1⟩ := slice_spaces 19 21 (s := c :: s) h
      obtain ⟨v2, hv2, hs2⟩ := drop_spaces 22 (s := c :: s) h
      obtain ⟨v3, hv3, hs3⟩ := slice_spaces 3 17 (s := c :: s) h
      unfold conductorFromLine
      rw [hv1, pyInt_spaces hs1, hv2, words_spaces hs2, hv3, strip_spaces hs3]
      simp only [ne_eq, c8]
    have e4 : adjacencyFromLine (c :: s ++ w) = adjacencyFromLine (c :: s) := by
      obtain ⟨v, hv, hs⟩ := drop_spaces 3 (s := c :: s) h
      unfold adjacencyFromLine
      rw [hv, strip_spaces hs]
      simp only [ne_eq, c9]
    have e5 : ∀ u, outlineFromLine (c :: s ++ w) u = outlineFromLine (c :: s) u := by
      intro u
      obtain ⟨v, hv, hs⟩ := slice_spaces 3 17 (s := c :: s) h
      unfold outlineFromLine
      rw [hv, strip_spaces hs, strip_spaces h]
    have e6 : strip ((c :: s ++ w).drop 2) = strip ((c :: s).drop 2) := by
      obtain ⟨v, hv, hs⟩ := drop_spaces 2 (s := c :: s) h
      rw [hv, strip_spaces hs]
    change (if c = 'C' then _ else _) = (if c = 'C' then _ else _)
    rw [e1, e2, e3, e4, e5, e6]
    simp only [code', c8, c9]

theorem joined_whole {l : Logical} (hl : l.Good) :
    ∃ w, l.whole = l.joined ++ w ∧ ∀ c ∈ w, isSpace c := by
  have keep : ∀ s : Str, (∀ d, s.getLast? = some d → isSpace d = false) →
      rstripBy isSpace s = s := by
    intro s hs
    unfold rstripBy
    cases hr : s.reverse with
    | nil =>
      have : s = [] := by simpa using hr
      subst this; rfl
    | cons c t =>
      have : s.getLast? = some c := by rw [← List.head?_reverse, hr]; rfl
      rw [List.dropWhile_cons_of_neg (by simp [hs c this]), ← hr, List.reverse_reverse]
  cases hc : l.conts using List.reverseRecOn with
  | nil => exact ⟨[], by simp [Logical.whole, Logical.joined, hc], by simp⟩
  | append_singleton cs c _ =>
    obtain ⟨w, hw, hs⟩ := rstrip_eq_append c.2
    refine ⟨w, ?_, hs⟩
    have hk := hl.kept
    rw [hc, List.dropLast_concat] at hk
    have : cs.map (fun c => rstripBy isSpace c.2) = cs.map (·.2) := by
      apply List.map_congr_left
      intro d hd
      exact keep d.2 (hk d hd)
    unfold Logical.whole Logical.joined
    rw [hc, List.map_append, List.map_append, this]
    conv_lhs => simp only [List.map_cons, List.map_nil, List.flatten_append, List.flatten_cons,
      List.flatten_nil, List.append_nil]; rw [hw]
    simp

theorem foldlM_congr_lines (ls : List Logical) (h : ∀ l ∈ ls, l.Good) (p : Parser) :
    (ls.map Logical.joined).foldlM Parser.parseLine p =
      (ls.map Logical.whole).foldlM Parser.parseLine p := by
  induction ls generalizing p with
  | nil => rfl
  | cons l ls ih =>
    obtain ⟨w, hw, hs⟩ := joined_whole (h l (by simp))
    rw [List.map_cons, List.map_cons, List.foldlM_cons, List.foldlM_cons, hw,
      parseLine_spaces p hs]
    simp only [bind, Except.bind]
    cases p.parseLine l.joined with
    | error e => rfl
    | ok q => exact ih (fun x hx => h x (by simp [hx])) q

/-! ## C39 -/

theorem parseRaw_physical {eol : Str} (he : IsEol eol) (ls : List Logical)
    (h : ∀ l ∈ ls, l.Good) :
    parseRaw (text eol (ls.flatMap Logical.physical)) =
      ((ls.map Logical.whole).foldlM Parser.parseLine {}).bind Parser.finish := by
  have hb : ∀ l ∈ ls.flatMap Logical.physical, NoBreak l := by
    intro s hs
    obtain ⟨l, hl, hs⟩ := List.mem_flatMap.1 hs
    rcases List.mem_cons.1 hs with hs | hs
    · rw [hs]; exact (h l hl).first
    · obtain ⟨c, hc, rfl⟩ := List.mem_map.1 hs
      exact (h l hl).conts c hc
  have := run_physical ls h {} []
  rw [List.foldlM_cons] at this
  rw [← foldlM_congr_lines ls h]
  change _ = (do let p ← (Parser.parseLine {} []); (ls.map Logical.joined).foldlM _ p) at this
  have e : Parser.parseLine {} [] = .ok {} := rfl
  rw [e] at this
  simp only [bind, Except.bind] at this
  unfold parseRaw
  rw [splitLines_text he hb]
  simp only [bind, Except.bind]
  rw [← this]
  cases List.foldlM step (({} : Parser), ([] : Str)) (ls.flatMap Logical.physical) with
  | error e => rfl
  | ok st => rfl

/-- **C39** A file whose logical lines were cut into physical lines with continuation markers gives
the same netlist (or the same exception) as the uncut file, whatever the line ends, provided no piece
that is followed by another one ends in white space. -/
theorem C39_continuation_partial (eol eol' : Str) (he : IsEol eol) (he' : IsEol eol')
    (ls : List Logical) (h : ∀ l ∈ ls, l.Good) :
    parseRaw (text eol (ls.flatMap Logical.physical)) = parseRaw (text eol' (ls.map Logical.whole)) := by
  rw [parseRaw_physical he ls h]
  have h2 := parseRaw_physical he' (ls.map fun l => ⟨l.whole, []⟩) (by
    intro l hl
    obtain ⟨m, hm, rfl⟩ := List.mem_map.1 hl
    have hg := h m hm
    refine ⟨?_, by simp, ?_, by simp, by simp⟩
    · intro c hc
      rcases List.mem_append.1 hc with hc | hc
      · exact hg.first c hc
      · obtain ⟨t, ht, hc⟩ := List.mem_flatten.1 hc
        obtain ⟨d, hd, rfl⟩ := List.mem_map.1 ht
        exact hg.conts d hd c (by simp [hc])
    · by_cases hf : m.first = []
      · simp [Logical.whole, hf, hg.nonempty hf]
      · have hh := hg.head
        obtain ⟨c, t, hct⟩ := List.exists_cons_of_ne_nil hf
        rw [hct] at hh
        simpa [Logical.whole, hct] using hh)
  have e1 : (ls.map fun l => (⟨l.whole, []⟩ : Logical)).flatMap Logical.physical =
      ls.map Logical.whole := by
    clear h h2
    induction ls with
    | nil => rfl
    | cons a l ih => simp only [List.map_cons, List.flatMap_cons, ih]; rfl
  have e2 : (ls.map fun l => (⟨l.whole, []⟩ : Logical)).map Logical.whole =
      ls.map Logical.whole := by
    simp [Logical.whole]
  rw [e1, e2] at h2
  rw [h2]

/-- **C39** Two ways to cut the same lines give the same netlist. -/
theorem C39_independent_partial (eol eol' : Str) (he : IsEol eol) (he' : IsEol eol')
    (ls ls' : List Logical) (h : ∀ l ∈ ls, l.Good) (h' : ∀ l ∈ ls', l.Good)
    (hw : ls.map Logical.whole = ls'.map Logical.whole) :
    parseRaw (text eol (ls.flatMap Logical.physical)) =
      parseRaw (text eol' (ls'.flatMap Logical.physical)) := by
  rw [C39_continuation_partial eol eol he he ls h, hw,
    ← C39_continuation_partial eol' eol he' he ls' h']

/-- Boolean form of `NoBreak`. -/
def noBreakB (s : Str) : Bool := s.all fun c => c != '\r' && !isBreak c

theorem noBreakB_iff (s : Str) : noBreakB s = true ↔ NoBreak s := by
  simp [noBreakB, NoBreak]

/-- Boolean form of `Logical.Good`. -/
def Logical.goodB (l : Logical) : Bool :=
  noBreakB l.first && l.conts.all (fun c => noBreakB ('0' :: c.1.1 :: c.1.2 :: c.2)) &&
    (l.first.head? != some '0') && (l.first != [] || l.conts.isEmpty) &&
    l.conts.dropLast.all fun c => match c.2.getLast? with
      | some d => !isSpace d
      | none => true

theorem Logical.good_of {l : Logical} (h : l.goodB = true) : l.Good := by
  simp only [Logical.goodB, Bool.and_eq_true, noBreakB_iff, List.all_eq_true, Bool.or_eq_true,
    bne_iff_ne, List.isEmpty_iff] at h
  obtain ⟨⟨⟨⟨h1, h2⟩, h3⟩, h4⟩, h5⟩ := h
  refine ⟨h1, h2, h3, fun hf => ?_, ?_⟩
  · rcases h4 with h4 | h4
    · exact (h4 hf).elim
    · exact h4
  · intro c hc d hd
    have := h5 c hc
    rw [hd] at this
    simpa using this

/-- A conductor record in three pieces, one of them cut within a number. -/
def cutLines : List Logical :=
  [⟨"P  UNITS CUST 1".toList, []⟩,
   ⟨"378NET_1          L01 X0100Y0200 X0000Y00".toList,
    [(('7', '8'), "00 X0100".toList), (('7', '8'), "Y0100  ".toList)]⟩,
   ⟨[], []⟩,
   ⟨"379A B".toList, [(('7', '9'), " C".toList)]⟩]

example : ∀ l ∈ cutLines, l.Good := fun l hl => Logical.good_of (by
  revert l
  decide +kernel)

example : (parseRaw (text ['\r', '\n'] (cutLines.flatMap Logical.physical))).map (·.statements) =
    .ok [.param "UNITS".toList "CUST 1".toList,
      .conductor "NET_1".toList 1 (some (1 / 10), some (1 / 5)) [[(0, 0), (1 / 10, 1 / 10)]],
      .adjacency "A".toList ["B".toList, "C".toList]] := by
  decide +kernel

/-- The claim fails when a piece that is followed by another one ends in a space: the space is
lost. -/
theorem C39_space_violated : ¬ ∀ l : Logical, NoBreak l.first → l.first ≠ [] →
    l.first.head? ≠ some '0' → (∀ c ∈ l.conts, NoBreak ('0' :: c.1.1 :: c.1.2 :: c.2)) →
    parseRaw (text ['\n'] l.physical) = parseRaw (text ['\n'] [l.whole]) := by
  intro h
  have := h ⟨"379A".toList, [(('7', '9'), " B ".toList), (('7', '9'), "C".toList)]⟩
    ((noBreakB_iff _).1 (by decide +kernel)) (by decide +kernel) (by decide +kernel)
    (by
      intro c hc
      refine (noBreakB_iff _).1 ?_
      revert c
      decide +kernel)
  revert this
  decide +kernel

/-! ## C40 -/

/-- Net `b` is named with `a` in an adjacency record: one of them heads the record, the other one is
in its list. -/
def Adjacent (ss : List Rec) (a b : Str) : Prop :=
  ∃ n l, Rec.adjacency n l ∈ ss ∧ ((n = a ∧ b ∈ l) ∨ (n = b ∧ a ∈ l))

theorem mem_adjacencyRecords (ss : List Rec) (n : Str) (l : List Str) :
    (n, l) ∈ adjacencyRecords ss ↔ Rec.adjacency n l ∈ ss := by
  unfold adjacencyRecords
  rw [List.mem_filterMap]
  constructor
  · rintro ⟨r, hr, h⟩
    cases r <;> simp at h
    obtain ⟨rfl, rfl⟩ := h
    exact hr
  · intro h
    exact ⟨_, h, rfl⟩

/-- **C40** For every net that heads no adjacency record: the adjacent nets are exactly those named
with it. -/
theorem C40_not_heading_partial (ss : List Rec) (net : Str)
    (h : ∀ l, Rec.adjacency net l ∉ ss) :
    ∃ adj, adjacentNets ss net = .ok adj ∧ ∀ b, b ∈ adj ↔ Adjacent ss net b := by
  have run : ∀ (rs : List (Str × List Str)), (∀ r ∈ rs, r.1 ≠ net) → ∀ acc : List Str,
      ∃ adj, rs.foldlM (adjStep net) (some acc) = .ok (some adj) ∧
        ∀ b, b ∈ adj ↔ b ∈ acc ∨ ∃ r ∈ rs, r.1 = b ∧ net ∈ r.2 := by
    intro rs
    induction rs with
    | nil => intro _ acc; exact ⟨acc, rfl, by simp⟩
    | cons r rs ih =>
      intro hr acc
      rw [List.foldlM_cons]
      have h1 := hr r (by simp)
      have ih := ih fun x hx => hr x (by simp [hx])
      by_cases h2 : net ∈ r.2
      · have : adjStep net (some acc) r = .ok (some (r.1 :: acc)) := by simp [adjStep, h1, h2]
        rw [this]
        obtain ⟨adj, e, hm⟩ := ih (r.1 :: acc)
        refine ⟨adj, e, fun b => ?_⟩
        rw [hm]
        simp only [List.mem_cons, exists_eq_or_imp, h2, and_true]
        constructor
        · rintro ((rfl | h) | h)
          · exact Or.inr (Or.inl rfl)
          · exact Or.inl h
          · exact Or.inr (Or.inr h)
        · rintro (h | rfl | h)
          · exact Or.inl (Or.inr h)
          · exact Or.inl (Or.inl rfl)
          · exact Or.inr h
      · have : adjStep net (some acc) r = .ok (some acc) := by simp [adjStep, h1, h2]
        rw [this]
        obtain ⟨adj, e, hm⟩ := ih acc
        refine ⟨adj, e, fun b => ?_⟩
        rw [hm]
        simp [h2]
  obtain ⟨adj, e, hm⟩ := run (adjacencyRecords ss) (by
    rintro ⟨n, l⟩ hr rfl
    exact h l ((mem_adjacencyRecords ss n l).1 hr)) []
  refine ⟨adj, ?_, fun b => ?_⟩
  · unfold adjacentNets
    rw [e]
    rfl
  · rw [hm]
    unfold Adjacent
    constructor
    · rintro (h1 | ⟨r, hr, rfl, h2⟩)
      · cases h1
      · exact ⟨r.1, r.2, (mem_adjacencyRecords ss _ _).1 hr, Or.inr ⟨rfl, h2⟩⟩
    · rintro ⟨n, l, hr, ⟨rfl, _⟩ | ⟨rfl, h2⟩⟩
      · exact (h l hr).elim
      · exact Or.inr ⟨(n, l), (mem_adjacencyRecords ss _ _).2 hr, rfl, h2⟩

example : adjacentNets [.adjacency "A".toList ["B".toList, "C".toList], .eof,
    .adjacency "D".toList ["C".toList]] "C".toList = .ok ["D".toList, "A".toList] := by
  decide +kernel

/-- What happens to every net that heads a record: if that is the last record that names it, no
adjacent net is reported at all; otherwise asking for the nets raises `AttributeError`. -/
theorem C40_heading (before after : List (Str × List Str)) (net : Str) (l : List Str)
    (ss : List Rec) (hs : adjacencyRecords ss = before ++ (net, l) :: after)
    (hb : ∀ r ∈ before, r.1 ≠ net) :
    adjacentNets ss net =
      if ∀ r ∈ after, r.1 ≠ net ∧ net ∉ r.2 then .ok [] else .error .attributeError := by
  have run1 : ∀ (rs : List (Str × List Str)), (∀ r ∈ rs, r.1 ≠ net) → ∀ acc : List Str,
      ∃ adj, rs.foldlM (adjStep net) (some acc) = .ok (some adj) := by
    intro rs
    induction rs with
    | nil => intro _ acc; exact ⟨acc, rfl⟩
    | cons r rs ih =>
      intro hr acc
      rw [List.foldlM_cons]
      have h1 := hr r (by simp)
      have ih := ih fun x hx => hr x (by simp [hx])
      by_cases h2 : net ∈ r.2
      · have : adjStep net (some acc) r = .ok (some (r.1 :: acc)) := by simp [adjStep, h1, h2]
        rw [this]
        exact ih _
      · have : adjStep net (some acc) r = .ok (some acc) := by simp [adjStep, h1, h2]
        rw [this]
        exact ih _
  have run2 : ∀ (rs : List (Str × List Str)), rs.foldlM (adjStep net) none =
      if ∀ r ∈ rs, r.1 ≠ net ∧ net ∉ r.2 then .ok none else .error .attributeError := by
    intro rs
    induction rs with
    | nil => rfl
    | cons r rs ih =>
      rw [List.foldlM_cons]
      by_cases h1 : r.1 = net
      · simp [adjStep, h1, bind, Except.bind]
      · by_cases h2 : net ∈ r.2
        · simp [adjStep, h1, h2, bind, Except.bind]
        · have : adjStep net none r = .ok none := by simp [adjStep, h1, h2]
          rw [this]
          simp only [bind, Except.bind]
          rw [ih]
          have : (∀ x ∈ r :: rs, x.1 ≠ net ∧ net ∉ x.2) ↔ ∀ x ∈ rs, x.1 ≠ net ∧ net ∉ x.2 := by
            rw [List.forall_mem_cons]
            exact ⟨fun h => h.2, fun h => ⟨⟨h1, h2⟩, h⟩⟩
          simp only [this]
  obtain ⟨adj, e⟩ := run1 before hb []
  unfold adjacentNets
  rw [hs, List.foldlM_append, e]
  simp only [bind, Except.bind, List.foldlM_cons]
  have : adjStep net (some adj) (net, l) = .ok none := by simp [adjStep]
  rw [this]
  simp only [run2]
  by_cases hA : ∀ r ∈ after, r.1 ≠ net ∧ net ∉ r.2
  · rw [if_pos hA, if_pos hA]; rfl
  · rw [if_neg hA, if_neg hA]

/-- The claim fails: a net that heads a record is reported without adjacent nets. -/
theorem C40_heading_violated : ¬ ∀ (ss : List Rec) (net : Str),
    ∃ adj, adjacentNets ss net = .ok adj ∧ ∀ b, b ∈ adj ↔ Adjacent ss net b := by
  intro h
  obtain ⟨adj, e, hm⟩ := h [.adjacency "A".toList ["B".toList]] "A".toList
  have : adjacentNets [.adjacency "A".toList ["B".toList]] "A".toList = .ok [] := by
    decide +kernel
  rw [this] at e
  have e := Except.ok.inj e
  have := (hm "B".toList).2 ⟨_, _, List.mem_singleton.2 rfl, Or.inl ⟨rfl, by simp⟩⟩
  rw [← e] at this
  cases this

/-- … and a net that heads a record and is named again makes `nets` raise `AttributeError`. -/
theorem C40_crash_violated :
    (parseRaw "317A                VIA         D0100PA00X 001000Y 001000\n379A B\n379B A".toList).map
      (fun n => nets n.statements) = .ok (.error .attributeError) := by
  decide +kernel

end Verif.Ipc
