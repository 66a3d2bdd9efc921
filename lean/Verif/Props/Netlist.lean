import Verif.Spec.Netlist
import Verif.Props.IpcRecord
import Verif.Props.ToolReport

/-! # C60: every line of a netlist file becomes its record -/

namespace Verif.Ipc
open Verif.Py Verif.Excellon Verif.Excellon.Spec

/-- The record of a line, given the lines before it. -/
def Line.record (before : List Line) : Line → Option Rec
  | .comment s => some (.comment s)
  | .unit u => some (.param "UNITS".toList (joined u.words))
  | .naming d name => some (.param (varName d) (joined name))
  | .param name value => some (.param name (joined value))
  | .point p => some (.test { p.record (unitsAt before).1 with netName := netAt before p.net })
  | .conductor net layer size shapes =>
      let u := unitSize (unitsAt before).1
      some (.conductor net layer
        (size.x.map fun n : Num => (n.value : ℚ) * u, size.y.map fun n : Num => (n.value : ℚ) * u)
        (shapes.map (pathPoints u)))
  | .adjacency net others => some (.adjacency net others)
  | .outline type steps => some (.outline type (pathPoints (unitSize (unitsAt before).1) steps))
  | .eof => some .eof
  | .other _ => none

/-! ## Paths -/

theorem all_num (n : Num) : n.text.all isDig = true := all_fixDigits _ _

theorem num_ne_nil {n : Num} (h : n.Fits) : n.text ≠ [] := by
  intro e
  have := length_fixDigits n.width n.value
  unfold Num.text at e
  rw [e] at this
  exact absurd h.1 (by simp at this; omega)

theorem pyInt_num {n : Num} (h : n.Fits) : pyInt n.text = .ok (n.value : ℤ) :=
  pyInt_fix (by have := h.1; omega) h.2

theorem span_digits {d r : Str} (hd : d.all isDig = true)
    (hr : ∀ c ∈ r.head?, (isDig c || isSpace c) = false) :
    (d ++ r).takeWhile (fun c => isDig c || isSpace c) = d ∧
      (d ++ r).dropWhile (fun c => isDig c || isSpace c) = r := by
  have h1 : ∀ c ∈ d, (isDig c || isSpace c) = true := by
    intro c hc
    rw [List.all_eq_true.1 hd c hc]; rfl
  refine ⟨?_, ?_⟩
  · rw [List.takeWhile_append_of_pos h1]
    cases r with
    | nil => simp
    | cons c r => rw [List.takeWhile_cons_of_neg (by rw [hr c rfl]; simp)]; simp
  · rw [List.dropWhile_append_of_pos h1]
    cases r with
    | nil => simp
    | cons c r => rw [List.dropWhile_cons_of_neg (by rw [hr c rfl]; simp)]

/-- The digits of a number that may be missing. -/
def optText : Option Num → Str
  | some n => n.text
  | none => []

theorem head_digit {s : Str} (h : s.all isDig = true) {c : Char} (hc : isDig c = false) {r : Str} :
    s ≠ c :: r := by
  rintro rfl
  simp [hc] at h

theorem coordGroups_step (s : Step) : coordGroups s.text = (optText s.x, optText s.y) := by
  obtain ⟨x, y⟩ := s
  have hnil : ∀ d : Str, d.all isDig = true →
      d.takeWhile (fun c => isDig c || isSpace c) = d ∧ d.dropWhile (fun c => isDig c || isSpace c) = [] := by
    intro d hd
    have := span_digits (r := []) hd (by simp)
    simpa using this
  have hY : ∀ d r : Str, d.all isDig = true →
      (d ++ 'Y' :: r).takeWhile (fun c => isDig c || isSpace c) = d ∧
      (d ++ 'Y' :: r).dropWhile (fun c => isDig c || isSpace c) = 'Y' :: r :=
    fun d r hd => span_digits hd (by intro c hc; simp at hc; subst hc; decide)
  cases x with
  | none =>
    cases y with
    | none => rfl
    | some m =>
      have h2 := hnil m.text (all_num m)
      have e : coordGroups ('Y' :: m.text) = ([], m.text.takeWhile fun c => isDig c || isSpace c) := rfl
      unfold Step.text letterNum optText
      rw [List.nil_append, e, h2.1]
  | some n =>
    cases y with
    | none =>
      have h2 := hnil n.text (all_num n)
      unfold coordGroups Step.text letterNum optText
      simp only [List.append_nil, h2.1, h2.2, List.takeWhile_nil]
    | some m =>
      have h2 := hnil m.text (all_num m)
      have h1 := hY n.text m.text (all_num n)
      unfold coordGroups Step.text letterNum optText
      simp only [List.cons_append, h1.1, h1.2, h2.1]

theorem intOr_num {n : Option Num} (h : ∀ m ∈ n, m.Fits) (v : ℤ) :
    intOr (optText n) v = .ok ((n.map fun m : Num => (m.value : ℤ)).getD v) := by
  cases n with
  | none => rfl
  | some m =>
    have hm := h m rfl
    unfold intOr optText
    simp only [ne_eq, num_ne_nil hm, not_false_eq_true, if_true, pyInt_num hm]
    rfl

theorem lastNum_concat (l : List (Option Num)) (n : Option Num) :
    lastNum (l ++ [n]) = (n.map Num.value).getD (lastNum l) := by
  unfold lastNum
  cases n <;> simp

theorem pathPoints_concat (u : ℚ) (steps : List Step) (s : Step) :
    pathPoints u (steps ++ [s]) = pathPoints u steps ++
      [(lastNum ((steps ++ [s]).map Step.x) * u, lastNum ((steps ++ [s]).map Step.y) * u)] := by
  unfold pathPoints
  rw [List.length_append, List.length_singleton, List.range_succ, List.map_append]
  congr 1
  · refine List.map_congr_left fun i hi => ?_
    have hi := List.mem_range.1 hi
    rw [List.take_append_of_le_length (by omega)]
  · simp [List.take_of_length_le]

theorem coordPath_append (u : ℚ) (a : List Str) : ∀ (b : List Str) (x y x' y' : ℤ) (r : List (ℚ × ℚ)),
    (∀ bs, coordPath u x y (a ++ bs) = (coordPath u x' y' bs).map (r ++ ·)) →
    coordPath u x y (a ++ b) = (coordPath u x' y' b).map (r ++ ·) := fun b _ _ _ _ _ h => h b

theorem coordPath_steps (u : ℚ) (steps : List Step) (h : ∀ s ∈ steps, s.Fits) :
    ∀ rest : List Str, coordPath u 0 0 (steps.map Step.text ++ rest) =
      (coordPath u (lastNum (steps.map Step.x)) (lastNum (steps.map Step.y)) rest).map
        (pathPoints u steps ++ ·) := by
  induction steps using List.reverseRecOn with
  | nil =>
    intro rest
    simp only [List.map_nil, List.nil_append, pathPoints, List.length_nil, List.range_zero, lastNum,
      List.reverse_nil, List.findSome?_nil, Nat.cast_zero]
    cases coordPath u 0 0 rest <;> rfl
  | append_singleton steps s ih =>
    intro rest
    have hs := h s (by simp)
    rw [List.map_append, List.map_cons, List.map_nil, List.append_assoc,
      ih (fun t ht => h t (by simp [ht])) ([s.text] ++ rest), List.singleton_append, coordPath,
      coordGroups_step, intOr_num hs.x, intOr_num hs.y]
    simp only [bind, Except.bind]
    have ex : ((s.x.map fun m : Num => (m.value : ℤ)).getD ((lastNum (steps.map Step.x) : ℕ) : ℤ)) =
        ((lastNum ((steps ++ [s]).map Step.x) : ℕ) : ℤ) := by
      rw [List.map_append, List.map_cons, List.map_nil, lastNum_concat]
      cases s.x <;> rfl
    have ey : ((s.y.map fun m : Num => (m.value : ℤ)).getD ((lastNum (steps.map Step.y) : ℕ) : ℤ)) =
        ((lastNum ((steps ++ [s]).map Step.y) : ℕ) : ℤ) := by
      rw [List.map_append, List.map_cons, List.map_nil, lastNum_concat]
      cases s.y <;> rfl
    rw [ex, ey, pathPoints_concat]
    cases coordPath u ↑(lastNum ((steps ++ [s]).map Step.x)) ↑(lastNum ((steps ++ [s]).map Step.y)) rest with
    | error e => rfl
    | ok r => simp [Except.map]

theorem coordPath_eq (u : ℚ) {steps : List Step} (h : ∀ s ∈ steps, s.Fits) :
    coordPath u 0 0 (steps.map Step.text) = .ok (pathPoints u steps) := by
  have := coordPath_steps u steps h []
  rw [List.append_nil] at this
  rw [this]
  simp [coordPath, Except.map]

theorem step_word {s : Step} (h : s.Fits) : IsWord s.text ∧ '*' ∉ s.text := by
  have hc : ∀ c ∈ s.text, c = 'X' ∨ c = 'Y' ∨ isDig c = true := by
    intro c hc
    have hl : ∀ (d : Char) (n : Option Num), c ∈ letterNum d n → c = d ∨ isDig c = true := by
      intro d n hn
      cases n with
      | none => cases hn
      | some n =>
        rcases List.mem_cons.1 hn with e | e
        · exact .inl e
        · exact .inr (List.all_eq_true.1 (all_num n) c e)
    rcases List.mem_append.1 hc with hc | hc
    · rcases hl _ _ hc with e | e
      · exact .inl e
      · exact .inr (.inr e)
    · exact .inr (hl _ _ hc)
  refine ⟨⟨?_, ?_⟩, ?_⟩
  · obtain ⟨x, y⟩ := s
    cases x with
    | some n => simp [Step.text, letterNum]
    | none =>
      cases y with
      | some n => simp [Step.text, letterNum]
      | none => have := h.some; simp at this
  · intro c hm
    rcases hc c hm with e | e | e
    · subst e; decide
    · subst e; decide
    · exact not_isSpace_of_isDig e
  · intro hm
    rcases hc _ hm with e | e | e
    · cases e
    · cases e
    · revert e; decide

/-! ## Words -/

theorem laid_words' {ws : List Str} {s : Str} (h : Laid ws s) : words s = ws := laid_words h

theorem words_strip' (s : Str) : words (strip s) = words s := words_strip s

/-- A character of a laid out text is white or in a word. -/
theorem laid_mem {ws : List Str} {s : Str} (h : Laid ws s) {c : Char} (hc : c ∈ s) :
    isSpace c = true ∨ ∃ w ∈ ws, c ∈ w := by
  induction h with
  | nil h => exact .inl (h c hc)
  | @last s w t h hw ht =>
    rcases List.mem_append.1 hc with hc | hc
    · rcases List.mem_append.1 hc with hc | hc
      · exact .inl (h c hc)
      · exact .inr ⟨w, by simp, hc⟩
    · exact .inl (ht c hc)
  | @cons s w t ws h hw d hd _ ih =>
    rcases List.mem_append.1 hc with hc | hc
    · rcases List.mem_append.1 hc with hc | hc
      · exact .inl (h c hc)
      · exact .inr ⟨w, by simp, hc⟩
    · rcases List.mem_cons.1 hc with rfl | hc
      · exact .inl hd
      · rcases ih hc with h | ⟨v, hv, h⟩
        · exact .inl h
        · exact .inr ⟨v, by simp [hv], h⟩

theorem laid_isWord {ws : List Str} {s : Str} (h : Laid ws s) : ∀ w ∈ ws, IsWord w := by
  induction h with
  | nil h => simp
  | last h hw ht => simpa using hw
  | cons h hw d hd _ ih => simpa [hw] using ih

theorem words_mid (a b : Str) {c : Char} (hc : isSpace c = true) : words (a ++ c :: b) = words a ++ words b := by
  unfold words
  rw [List.splitOnP_append_cons a b hc, List.filter_append]

theorem words_isWord {w : Str} (h : IsWord w) : words w = [w] := by
  have := Load.words_word (w := w) (r := []) h.1 h.2 (by simp)
  rw [List.append_nil] at this
  rw [this]; rfl

theorem words_joined {ws : List Str} (h : ∀ w ∈ ws, IsWord w) : words (joined ws) = ws := by
  induction ws with
  | nil => rfl
  | cons w ws ih =>
    have hw := words_isWord (h w (by simp))
    cases ws with
    | nil => simpa [joined] using hw
    | cons v vs =>
      have ih := ih fun x hx => h x (by simp [hx])
      have e : joined (w :: v :: vs) = w ++ ' ' :: joined (v :: vs) := by
        unfold joined
        rw [List.intercalate_cons_cons]
        simp
      rw [e, words_mid _ _ (by rfl), hw, ih]
      rfl

theorem strip_joined {ws : List Str} (h : ∀ w ∈ ws, IsWord w) : strip (joined ws) = joined ws := by
  rcases List.eq_nil_or_concat ws with rfl | ⟨vs, w, rfl⟩
  · rfl
  · have hw := h w (by simp)
    obtain ⟨l, z, rfl⟩ := List.eq_nil_or_concat w |>.resolve_left hw.1
    simp only [List.concat_eq_append] at *
    have hz : isSpace z = false := hw.2 z (by simp)
    have hlast : ∃ r, joined (vs ++ [l ++ [z]]) = r ++ [z] := by
      clear h
      induction vs with
      | nil => exact ⟨l, by simp [joined]⟩
      | cons v vs ih =>
        obtain ⟨r, hr⟩ := ih
        refine ⟨v ++ ' ' :: r, ?_⟩
        unfold joined at hr ⊢
        rw [List.cons_append]
        obtain ⟨a, as, e⟩ := List.exists_cons_of_ne_nil (l := vs ++ [l ++ [z]]) (by simp)
        rw [e] at hr ⊢
        rw [List.intercalate_cons_cons, hr]
        simp
    obtain ⟨r, hr⟩ := hlast
    have hhead : ∃ c t, joined (vs ++ [l ++ [z]]) = c :: t ∧ isSpace c = false := by
      cases hv : vs with
      | nil =>
        obtain ⟨c, t, e⟩ := List.exists_cons_of_ne_nil hw.1
        refine ⟨c, t, by simpa [joined] using e, hw.2 c (by rw [e]; simp)⟩
      | cons v vs' =>
        have hv' := h v (by simp [hv])
        obtain ⟨c, t, rfl⟩ := List.exists_cons_of_ne_nil hv'.1
        obtain ⟨a, as, e⟩ := List.exists_cons_of_ne_nil (l := vs' ++ [l ++ [z]]) (by simp)
        refine ⟨c, t ++ ' ' :: joined (a :: as), ?_, hv'.2 c (by simp)⟩
        unfold joined
        rw [List.cons_append, e, List.intercalate_cons_cons]
        simp
    obtain ⟨c, t, h1, h2⟩ := hhead
    have h3 := h1.symm.trans hr
    cases r with
    | nil =>
      rw [hr]
      exact strip_of_no_space (by simp [hz])
    | cons d r =>
      injection h3 with h3 h4
      rw [hr, ← h3]
      exact Gerber.strip_ends h2 hz

/-! ## Shapes separated by stars -/

/-- Joins the last list of the first to the first list of the second. -/
def glue : List (List Str) → List (List Str) → List (List Str)
  | [], b => b
  | [x], [] => [x]
  | [x], y :: ys => (x ++ y) :: ys
  | x :: x' :: xs, b => x :: glue (x' :: xs) b

/-- The words between the stars. -/
def starWords (s : Str) : List (List Str) := (splitOn '*' s).map words

theorem splitOn_ne_nil (c : Char) (s : Str) : splitOn c s ≠ [] := by
  cases s with
  | nil => simp [splitOn]
  | cons x s =>
    simp only [splitOn]
    split
    · simp
    · split <;> simp

theorem starWords_cons {c : Char} (h : c ≠ '*') (s : Str) : ∃ x xs, splitOn '*' s = x :: xs ∧
    splitOn '*' (c :: s) = (c :: x) :: xs := by
  obtain ⟨x, xs, e⟩ := List.exists_cons_of_ne_nil (splitOn_ne_nil '*' s)
  exact ⟨x, xs, e, by simp [splitOn, h, e]⟩

theorem splitOn_mid (a b : Str) {c : Char} (h : c ≠ '*') : ∃ x xs l y ys, splitOn '*' a = xs ++ [x] ∧
    splitOn '*' b = y :: ys ∧ splitOn '*' (a ++ c :: b) = xs ++ l :: ys ∧ l = x ++ c :: y := by
  induction a with
  | nil =>
    obtain ⟨y, ys, e1, e2⟩ := starWords_cons h b
    exact ⟨[], [], c :: y, y, ys, rfl, e1, by simp [e2], rfl⟩
  | cons d a ih =>
    obtain ⟨x, xs, l, y, ys, e1, e2, e3, e4⟩ := ih
    by_cases hd : d = '*'
    · exact ⟨x, [] :: xs, l, y, ys, by simp [splitOn, hd, e1], e2, by simp [splitOn, hd, e3], e4⟩
    · cases xs with
      | nil =>
        exact ⟨d :: x, [], d :: l, y, ys, by simp [splitOn, hd, e1], e2, by simp [splitOn, hd, e3],
          by rw [e4]; rfl⟩
      | cons v xs =>
        exact ⟨x, (d :: v) :: xs, l, y, ys, by simp [splitOn, hd, e1], e2, by simp [splitOn, hd, e3], e4⟩

theorem glue_concat (xs : List (List Str)) (x y : List Str) (ys : List (List Str)) :
    glue (xs ++ [x]) (y :: ys) = xs ++ (x ++ y) :: ys := by
  induction xs with
  | nil => rfl
  | cons v xs ih =>
    cases xs with
    | nil => rfl
    | cons w xs =>
      simp only [List.cons_append, glue] at ih ⊢
      rw [ih]

theorem glue_nil_left (b : List (List Str)) (h : b ≠ []) : glue [[]] b = b := by
  cases b with
  | nil => exact absurd rfl h
  | cons y ys => rfl

theorem starWords_ne_nil (s : Str) : starWords s ≠ [] := by
  unfold starWords
  simp [splitOn_ne_nil]

theorem starWords_mid (a b : Str) {c : Char} (hc : isSpace c = true) :
    starWords (a ++ c :: b) = glue (starWords a) (starWords b) := by
  have h : c ≠ '*' := by rintro rfl; revert hc; decide
  obtain ⟨x, xs, l, y, ys, e1, e2, e3, e4⟩ := splitOn_mid a b h
  unfold starWords
  rw [e1, e2, e3, e4, List.map_append, List.map_append, List.map_cons, List.map_cons, List.map_cons,
    List.map_nil, words_mid _ _ hc, glue_concat]

theorem splitOnP_cons_space {c : Char} (hc : isSpace c = true) (s : Str) :
    (c :: s).splitOnP isSpace = [] :: s.splitOnP isSpace := by
  have := List.splitOnP_append_cons (p := isSpace) [] s hc
  simpa using this

theorem starWords_joined (s : Str) : starWords (joined (words s)) = starWords s := by
  -- by the first white character of the text
  induction hn : s.length using Nat.strong_induction_on generalizing s with
  | _ n ih =>
    by_cases hsp : ∃ c ∈ s, isSpace c = true
    · obtain ⟨c, hc, hcs⟩ := hsp
      obtain ⟨a, b, rfl⟩ := List.append_of_mem hc
      rw [starWords_mid a b hcs, words_mid a b hcs, ← ih a.length (by simp at hn; omega) a rfl,
        ← ih b.length (by simp at hn; omega) b rfl]
      rcases ha : words a with _ | ⟨w, ws⟩
      · rw [List.nil_append]
        have : starWords (joined []) = [[]] := rfl
        rw [this, glue_nil_left _ (starWords_ne_nil _)]
      · rcases hb : words b with _ | ⟨v, vs⟩
        · rw [List.append_nil]
          have h1 : starWords (joined []) = [[]] := rfl
          obtain ⟨xs, x, e⟩ := List.eq_nil_or_concat (starWords (joined (w :: ws))) |>.resolve_left
            (starWords_ne_nil _)
          rw [h1, e, List.concat_eq_append, glue_concat, List.append_nil]
        · have e : joined ((w :: ws) ++ v :: vs) = joined (w :: ws) ++ ' ' :: joined (v :: vs) := by
            clear ih ha hb hc hn
            induction ws generalizing w with
            | nil =>
              unfold joined
              rw [List.singleton_append, List.intercalate_cons_cons]
              simp
            | cons w' ws ih =>
              have := ih w'
              unfold joined at this ⊢
              rw [List.cons_append, List.cons_append, List.intercalate_cons_cons, ← List.cons_append, this,
                List.intercalate_cons_cons]
              simp
          rw [e, starWords_mid _ _ (by rfl)]
    · have hw : ∀ c ∈ s, isSpace c = false := by
        intro c hc
        by_contra h
        exact hsp ⟨c, hc, by simpa using h⟩
      by_cases h0 : s = []
      · subst h0; rfl
      · rw [words_isWord ⟨h0, hw⟩]
        simp [joined]

theorem splitOn_intercalate {bs : List Str} (h : ∀ b ∈ bs, '*' ∉ b) (hne : bs ≠ []) :
    splitOn '*' (List.intercalate ['*'] bs) = bs := by
  have hpre : ∀ (b r : Str), '*' ∉ b → splitOn '*' (b ++ '*' :: r) = b :: splitOn '*' r := by
    intro b r hb
    induction b with
    | nil => simp [splitOn]
    | cons c b ih =>
      have hc : c ≠ '*' := by rintro rfl; exact hb (by simp)
      simp only [List.cons_append, splitOn, hc, if_false, ih fun h => hb (by simp [h])]
  have hone : ∀ b : Str, '*' ∉ b → splitOn '*' b = [b] := by
    intro b hb
    induction b with
    | nil => rfl
    | cons c b ih =>
      have hc : c ≠ '*' := by rintro rfl; exact hb (by simp)
      simp only [splitOn, hc, if_false, ih fun h => hb (by simp [h])]
  induction bs with
  | nil => exact absurd rfl hne
  | cons b bs ih =>
    cases bs with
    | nil => simpa using hone b (h b (by simp))
    | cons b' bs =>
      rw [List.intercalate_cons_cons, List.append_assoc, List.singleton_append, hpre b _ (h b (by simp)),
        ih (fun x hx => h x (by simp [hx])) (by simp)]

/-! ## Single lines -/

/-- The name given last to a variable. -/
def nameAt (before : List Line) (net : Str) : Option Str := before.reverse.findSome? (Line.name? net)

theorem unitsAt_concat (before : List Line) (l : Line) :
    unitsAt (before ++ [l]) = (l.unit?.map UnitChoice.units).getD (unitsAt before) := by
  unfold unitsAt
  rw [List.reverse_append, List.reverse_singleton, List.singleton_append, List.findSome?_cons]
  cases l <;> rfl

theorem nameAt_concat (before : List Line) (l : Line) (net : Str) :
    nameAt (before ++ [l]) net = (l.name? net <|> nameAt before net) := by
  unfold nameAt
  rw [List.reverse_append, List.reverse_singleton, List.singleton_append, List.findSome?_cons]
  cases l.name? net <;> rfl

theorem netAt_eq (before : List Line) (net : Str) : netAt before net = (nameAt before net).getD net := rfl

/-- The parser after some lines. -/
structure After (before : List Line) (q : Parser) : Prop where
  units : (q.units, q.angle) = unitsAt before
  names : ∀ net, dictGet q.nnames net = nameAt before net

theorem isNName_var {d : Str} (h0 : d ≠ []) (h : d.all isDig = true) : isNName (varName d) = true := by
  have hl : d.getLast? ≠ some '\n' := by
    intro e
    have := List.all_eq_true.1 h _ (List.mem_of_getLast? e)
    revert this; decide
  have h1 : (varName d).drop 5 = d := by
    unfold varName; exact List.drop_left' rfl
  have h2 : (varName d).take 5 = "NNAME".toList := by
    unfold varName; exact List.take_left' rfl
  unfold isNName
  simp only [h1, h2, hl, if_false, h]
  simp [h0]

theorem not_isNName {s : Str} (h : ¬ "NNAME".toList <+: s) : isNName s = false := by
  by_contra hn
  have hn : isNName s = true := by simpa using hn
  unfold isNName at hn
  simp only [Bool.and_eq_true, beq_iff_eq] at hn
  exact h (hn.1.1 ▸ List.take_prefix 5 s)

theorem param_words {w : Str} {ws : List Str} {r : Str} (h : Laid (w :: ws) r) :
    paramFromLine ("P ".toList ++ r) = .ok (w, joined ws) := by
  have hw := laid_isWord h
  unfold paramFromLine
  rw [show ("P ".toList ++ r).drop 2 = r from rfl, laid_words' h]
  simp only [pyIdx, bind, Except.bind]
  rw [show ("P ".toList ++ r)[0]? = some 'P' from rfl]
  simp only [ne_eq, not_true_eq_false, if_false, List.getElem?_cons_zero, List.drop_succ_cons, List.drop_zero]
  have h1 := hw w (by simp)
  rw [strip_of_no_space (s := w) (by
    rw [List.all_eq_true]
    intro c hc
    simp [h1.2 c hc])]
  have h2 := strip_joined (ws := ws) fun v hv => hw v (by simp [hv])
  have e : unwords ws = joined ws := rfl
  rw [e, h2]

theorem parse_param (q : Parser) {w : Str} {ws : List Str} {r : Str} (h : Laid (w :: ws) r) :
    q.parseLine ("P ".toList ++ r) = .ok (q.param w (joined ws)) := by
  have h1 : q.parseLine ("P ".toList ++ r) = (do
      let nv ← paramFromLine ("P ".toList ++ r)
      .ok (q.param nv.1 nv.2)) := rfl
  rw [h1, param_words h]
  rfl

theorem unit_words_isWord (u : UnitChoice) : ∀ w ∈ u.words, IsWord w := by
  have : ∀ w ∈ ["CUST".toList, "0".toList, "1".toList, "2".toList], IsWord w := by
    unfold IsWord
    decide
  intro w hw
  apply this
  cases u <;> simp [UnitChoice.words] at hw ⊢ <;> tauto

theorem joined_cust : joined (UnitChoice.words .cust) = "CUST".toList ∧
    joined (UnitChoice.words .cust0) = "CUST 0".toList ∧ joined (UnitChoice.words .cust1) = "CUST 1".toList ∧
    joined (UnitChoice.words .cust2) = "CUST 2".toList := by decide +kernel

theorem setUnits_other (q : Parser) {name : Str} {value : List Str} (hv : ∀ w ∈ value, IsWord w)
    (h : name = "UNITS".toList → ∀ u : UnitChoice, value ≠ u.words) :
    q.setUnits name (joined value) = q := by
  have hj : ∀ u : UnitChoice, name = "UNITS".toList → joined value ≠ joined u.words := by
    intro u hn e
    have := congrArg words e
    rw [words_joined hv, words_joined (unit_words_isWord u)] at this
    exact h hn u this
  have h1 := hj .cust
  have h2 := hj .cust0
  have h3 := hj .cust1
  have h4 := hj .cust2
  rw [joined_cust.1] at h1
  rw [joined_cust.2.1] at h2
  rw [joined_cust.2.2.1] at h3
  rw [joined_cust.2.2.2] at h4
  unfold Parser.setUnits
  split
  · rename_i hn
    rw [if_neg (by rintro (e | e); exacts [h1 hn e, h2 hn e]), if_neg (h3 hn), if_neg (h4 hn)]
  · rfl

theorem pathLine_words {type r : Str} {ws : List Str} (ht : ∀ c ∈ type, isSpace c = false)
    (hl : Laid ws r) (hr : ∀ c ∈ r.head?, isSpace c = true) (n : ℕ) :
    words ("389".toList ++ pad n type ++ r) = ("389".toList ++ type) :: ws := by
  have hw : ∀ c ∈ "389".toList ++ type, isSpace c = false := by
    intro c hc
    rcases List.mem_append.1 hc with h | h
    · clear hc; revert c; decide
    · exact ht c h
  unfold pad
  rw [← List.append_assoc, List.append_assoc, Load.words_word (w := "389".toList ++ type) (by simp) hw]
  · rw [Load.words_blank_left (by intro c hc; rw [List.eq_of_mem_replicate hc]; rfl), laid_words' hl]
  · intro c hc
    cases hk : n - type.length with
    | zero =>
      rw [hk] at hc
      exact hr c hc
    | succ k =>
      rw [hk, List.replicate_succ, List.cons_append, List.head?_cons, Option.mem_def, Option.some.injEq] at hc
      rw [← hc]; rfl

theorem parse_outline (q : Parser) {type r : Str} {steps : List Step} (h14 : type.length ≤ 14)
    (ht : ∀ c ∈ type, isSpace c = false) (hs : ∀ s ∈ steps, s.Fits) (hl : Laid (steps.map Step.text) r)
    (hr : ∀ c ∈ r.head?, isSpace c = true) :
    q.parseLine ("389".toList ++ pad 14 type ++ r) =
      .ok (q.add (.outline type (pathPoints (unitSize q.units) steps))) := by
  have h1 : q.parseLine ("389".toList ++ pad 14 type ++ r) = (do
      let r ← outlineFromLine ("389".toList ++ pad 14 type ++ r) q.units
      .ok (q.add r)) := rfl
  rw [h1]
  unfold outlineFromLine
  have hsl : slice 3 17 ("389".toList ++ pad 14 type ++ r) = pad 14 type := by
    unfold slice
    rw [List.take_left' (by rw [List.length_append, length_pad h14]; rfl), show ("389".toList ++ pad 14 type).drop 3 = pad 14 type from rfl]
  rw [words_strip', pathLine_words ht hl hr, hsl, strip_pad, List.drop_succ_cons, List.drop_zero,
    show scaleOf q.units = unitSize q.units from rfl, coordPath_eq _ hs]
  simp only [bind, Except.bind]
  rw [strip_of_no_space (by rw [List.all_eq_true]; intro c hc; simp [ht c hc])]

theorem parse_adjacency (q : Parser) {net r : Str} {others : List Str} (hl : Laid (net :: others) r) :
    q.parseLine ("379".toList ++ r) = .ok (q.add (.adjacency net others)) := by
  have h1 : q.parseLine ("379".toList ++ r) = (do
      let r ← adjacencyFromLine ("379".toList ++ r)
      .ok (q.add r)) := rfl
  rw [h1]
  unfold adjacencyFromLine
  rw [show slice 0 3 ("379".toList ++ r) = ['3', '7', '9'] from rfl, show ("379".toList ++ r).drop 3 = r from rfl,
    words_strip', laid_words' hl]
  rfl

theorem dimOr_num {n : Option Num} (h : ∀ m ∈ n, m.Fits) (u : ℚ) :
    dimOr (optText n) u = .ok (n.map fun m : Num => (m.value : ℚ) * u) := by
  cases n with
  | none => rfl
  | some m =>
    have hm := h m rfl
    unfold dimOr optText
    simp only [ne_eq, num_ne_nil hm, not_false_eq_true, if_true, pyInt_num hm, bind, Except.bind]
    simp

theorem mapM_shapes (u : ℚ) {shapes : List (List Step)} {bodies : List Str}
    (h : List.Forall₂ (fun sh b => Laid (sh.map Step.text) b) shapes bodies)
    (hf : ∀ sh ∈ shapes, ∀ s ∈ sh, s.Fits) :
    (bodies.map words).mapM (fun ws => coordPath u 0 0 ws) = .ok (shapes.map (pathPoints u)) := by
  induction h with
  | nil => rfl
  | cons h _ ih =>
    rw [List.map_cons, List.mapM_cons, laid_words' h, coordPath_eq _ (hf _ (by simp))]
    simp only [bind, Except.bind]
    rw [ih fun sh hsh => hf sh (by simp [hsh])]
    rfl

theorem parse_conductor (q : Parser) {net : Str} {layer : ℕ} {size : Step} {shapes : List (List Step)}
    {g r : Str} {bodies : List Str} (h14 : net.length ≤ 14) (hn : strip net = net) (hlay : layer < 100)
    (hz : size.Fits) (hne : shapes ≠ []) (hf : ∀ sh ∈ shapes, ∀ s ∈ sh, s.Fits)
    (hg : ∀ c ∈ g, isSpace c = true) (hr : ∀ c ∈ r.head?, isSpace c = true)
    (hb : r = List.intercalate ['*'] bodies)
    (hl : List.Forall₂ (fun sh b => Laid (sh.map Step.text) b) shapes bodies) :
    q.parseLine ("378".toList ++ pad 14 net ++ " L".toList ++ fixDigits 2 layer ++ " ".toList ++ g ++ size.text ++ r) =
      .ok (q.add (.conductor net layer
        (size.x.map fun n : Num => (n.value : ℚ) * unitSize q.units,
          size.y.map fun n : Num => (n.value : ℚ) * unitSize q.units)
        (shapes.map (pathPoints (unitSize q.units))))) := by
  generalize hline : "378".toList ++ pad 14 net ++ " L".toList ++ fixDigits 2 layer ++ " ".toList ++ g ++
    size.text ++ r = line
  have hcols : line = ["378".toList, pad 14 net, " L".toList, fixDigits 2 layer, " ".toList,
      g ++ size.text ++ r].flatten := by
    rw [← hline]; simp
  have hlen : ["378".toList, pad 14 net, " L".toList, fixDigits 2 layer, " ".toList,
      g ++ size.text ++ r].map List.length = [3, 14, 2, 2, 1, (g ++ size.text ++ r).length] := by
    simp only [List.map_cons, List.map_nil, length_pad h14, length_fixDigits]
    rfl
  have h0 : slice 0 3 line = "378".toList := by rw [hcols]; exact slice_flatten hlen 0 rfl
  have hnet : slice 3 17 line = pad 14 net := by rw [hcols]; exact slice_flatten hlen 1 rfl
  have hla : slice 19 21 line = fixDigits 2 layer := by rw [hcols]; exact slice_flatten hlen 3 rfl
  have hdrop : line.drop 22 = g ++ size.text ++ r := by
    rw [← hline]
    simp only [List.append_assoc]
    rw [← List.append_assoc, ← List.append_assoc, ← List.append_assoc, ← List.append_assoc]
    refine List.drop_left' ?_
    simp only [List.length_append, length_pad h14, length_fixDigits]
    rfl
  have hhead : ∃ t, line = '3' :: '7' :: '8' :: t := ⟨_, hline.symm⟩
  have h1 : q.parseLine line = (do
      let r ← conductorFromLine line q.units
      .ok (q.add r)) := by
    obtain ⟨t, e⟩ := hhead
    rw [e]; rfl
  have hws : words (g ++ size.text ++ r) = size.text :: words r := by
    rw [List.append_assoc, Load.words_blank_left hg, Load.words_word (step_word hz).1.1 (step_word hz).1.2 hr]
  have hstar : (splitOn '*' (unwords (words r))).map words = bodies.map words := by
    have e := starWords_joined r
    unfold starWords at e
    rw [show unwords (words r) = joined (words r) from rfl, e, hb, splitOn_intercalate]
    · intro b hbm hs
      obtain ⟨sh, hsh, hlaid⟩ : ∃ sh ∈ shapes, Laid (sh.map Step.text) b := by
        clear hb hne e
        induction hl with
        | nil => cases hbm
        | @cons a b' l l' h _ ih =>
          rcases List.mem_cons.1 hbm with rfl | hm
          · exact ⟨a, by simp, h⟩
          · obtain ⟨sh, h1, h2⟩ := ih (fun x hx => hf x (by simp [hx])) hm
            exact ⟨sh, by simp [h1], h2⟩
      rcases laid_mem hlaid hs with h | ⟨w, hw, h⟩
      · revert h; decide
      · obtain ⟨st, hst, rfl⟩ := List.mem_map.1 hw
        exact (step_word (hf sh hsh st hst)).2 h
    · rintro rfl
      cases hl
      exact hne rfl
  have hm : (splitOn '*' (unwords (words r))).mapM (fun s => coordPath (scaleOf q.units) 0 0 (words s)) =
      .ok (shapes.map (pathPoints (unitSize q.units))) := by
    rw [← mapM_shapes (unitSize q.units) hl hf, ← hstar, List.mapM_map]
    rfl
  rw [h1]
  unfold conductorFromLine
  rw [h0, hla, hdrop, hws, hnet, strip_pad, hn, pyInt_fix (by decide) (by omega)]
  simp only [bind, Except.bind, pyIdx, List.getElem?_cons_zero, List.drop_succ_cons, List.drop_zero]
  rw [coordGroups_step, dimOr_num hz.x, dimOr_num hz.y]
  simp only [hm]
  rfl

theorem parse_other (q : Parser) {s : Str} (h1 : ∀ c ∈ s.head?, c ∉ ['C', 'P', '9', '0'])
    (h2 : s.take 3 ∉ ["317".toList, "327".toList, "367".toList, "378".toList, "379".toList, "389".toList]) :
    q.parseLine s = .ok q := by
  cases s with
  | nil => rfl
  | cons c s =>
    have hc := h1 c rfl
    simp only [List.mem_cons, List.not_mem_nil, or_false, not_or] at hc h2
    have e : slice 0 3 (c :: s) = (c :: s).take 3 := rfl
    have hs : (c :: s).take 3 ∉ [['3', '1', '7'], ['3', '2', '7'], ['3', '6', '7']] := by
      simp only [List.mem_cons, List.not_mem_nil, or_false, not_or]
      exact ⟨h2.1, h2.2.1, h2.2.2.1⟩
    have h378 : (c :: s).take 3 ≠ ['3', '7', '8'] := h2.2.2.2.1
    have h379 : (c :: s).take 3 ≠ ['3', '7', '9'] := h2.2.2.2.2.1
    have h389 : (c :: s).take 3 ≠ ['3', '8', '9'] := h2.2.2.2.2.2
    unfold Parser.parseLine
    simp only [e]
    rw [if_neg hc.1, if_neg hc.2.1, if_neg hc.2.2.1, if_neg hs, if_neg h378, if_neg h379, if_neg h389]

theorem parse_testPoint (q : Parser) {p : Point} (h : p.Fits)
    (hd : p.dash = true ∨ ('-' ∉ p.pin ∧ 0 ≤ p.x ∧ 0 ≤ p.y)) (ha : q.angle = "degrees" ∨ p.rotation = none) :
    q.parseLine p.line = .ok (q.add (.test (q.substNet (p.record q.units)))) := by
  obtain ⟨r, e⟩ := line_head p
  have h1 : q.parseLine p.line = (do
      let r ← TestRec.fromLine p.line q.units q.angle
      .ok (q.add (.test (q.substNet r)))) := by
    rw [e]
    cases p.kind <;> rfl
  rw [h1, C54_record_partial h hd ha]
  rfl

/-- The variables that have names are net name variables. -/
theorem nameAt_isNName {before : List Line} {net v : Str}
    (hg : ∀ l ∈ before, ∀ d name, l = .naming d name → d ≠ [] ∧ d.all isDig = true)
    (h : nameAt before net = some v) : isNName net = true := by
  unfold nameAt at h
  obtain ⟨l, hl, hn⟩ := List.exists_of_findSome?_eq_some h
  have hl := List.mem_reverse.1 hl
  cases l with
  | naming d name =>
    simp only [Line.name?] at hn
    split at hn
    · rename_i e
      rw [← e]
      exact isNName_var (hg _ hl d name rfl).1 (hg _ hl d name rfl).2
    · cases hn
  | _ => cases hn

theorem parse_one {before : List Line} {l : Line} {t : Str} (hg : l.Good before) (ht : l.IsText t)
    (hb : ∀ l ∈ before, ∀ d name, l = .naming d name → d ≠ [] ∧ d.all isDig = true)
    {q : Parser} (ha : After before q) : ∃ q', q.parseLine t = .ok q' ∧ After (before ++ [l]) q' ∧
      q'.statements = q.statements ++ (l.record before).toList := by
  have hu : q.units = (unitsAt before).1 := congrArg Prod.fst ha.units
  have hang : q.angle = (unitsAt before).2 := congrArg Prod.snd ha.units
  -- lines that choose neither units nor names
  have keep : ∀ r : Option Rec, l.unit? = none → (∀ net, l.name? net = none) → l.record before = r →
      (∀ x ∈ r, q.parseLine t = .ok (q.add x)) → (r = none → q.parseLine t = .ok q) →
      ∃ q', q.parseLine t = .ok q' ∧ After (before ++ [l]) q' ∧
        q'.statements = q.statements ++ (l.record before).toList := by
    intro r h1 h2 hr h3 h4
    have hafter : ∀ q' : Parser, q'.units = q.units → q'.angle = q.angle → q'.nnames = q.nnames →
        After (before ++ [l]) q' := by
      intro q' e1 e2 e3
      refine ⟨?_, fun net => ?_⟩
      · rw [unitsAt_concat, h1, e1, e2, ha.units]; rfl
      · rw [nameAt_concat, h2, e3, ha.names]; rfl
    cases r with
    | none => exact ⟨q, h4 rfl, hafter q rfl rfl rfl, by rw [hr]; simp⟩
    | some x => exact ⟨q.add x, h3 x rfl, hafter _ rfl rfl rfl, by rw [hr]; rfl⟩
  cases l with
  | comment s =>
    refine keep (some (.comment s)) rfl (fun _ => rfl) rfl ?_ (by simp)
    rintro x ⟨⟩
    cases ht
    have h1 : q.parseLine ("C  ".toList ++ s) = .ok (q.add (.comment (strip (' ' :: s)))) := rfl
    rw [h1]
    have h2 : strip (' ' :: s) = strip s := by
      unfold strip stripBy lstripBy
      rw [List.dropWhile_cons_of_pos (by rfl)]
    rw [h2, show strip s = s from hg]
  | unit u =>
    obtain ⟨r, hl, rfl⟩ := ht
    refine ⟨_, parse_param q hl, ?_, ?_⟩
    · have hn : isNName "UNITS".toList = false := by decide
      refine ⟨?_, fun net => ?_⟩
      · rw [unitsAt_concat]
        unfold Parser.param
        simp only [hn, Bool.false_eq_true, if_false]
        cases u
        · rw [joined_cust.1]; rfl
        · rw [joined_cust.2.1]; rfl
        · rw [joined_cust.2.2.1]; rfl
        · rw [joined_cust.2.2.2]; rfl
      · rw [nameAt_concat]
        have : (q.param "UNITS".toList (joined u.words)).nnames = q.nnames := by
          unfold Parser.param
          simp only [hn, Bool.false_eq_true, if_false, Parser.add]
          unfold Parser.setUnits
          split
          · split
            · rfl
            · split
              · rfl
              · split <;> rfl
          · rfl
        rw [this, ha.names]
        rfl
    · have hst : ∀ n v, (q.setUnits n v).statements = q.statements := by
        intro n v
        unfold Parser.setUnits
        split
        · split
          · rfl
          · split
            · rfl
            · split <;> rfl
        · rfl
      unfold Parser.param
      simp only [show isNName "UNITS".toList = false by decide, Bool.false_eq_true, if_false, Parser.add, hst]
      rfl
  | naming d name =>
    obtain ⟨r, hl, rfl⟩ := ht
    have hd := isNName_var hg.1 hg.2
    have hun : varName d ≠ "UNITS".toList := by
      intro e
      have h : some 'N' = some 'U' := congrArg List.head? e
      revert h; decide
    have e : q.param (varName d) (joined name) = { q with
        statements := q.statements ++ [.param (varName d) (joined name)],
        nnames := dictSet q.nnames (varName d) (joined name) } := by
      unfold Parser.param Parser.setUnits
      simp only [hun, if_false, hd, if_true, Parser.add]
    refine ⟨_, parse_param q hl, ?_, by rw [e]; rfl⟩
    rw [e]
    refine ⟨?_, fun net => ?_⟩
    · rw [unitsAt_concat]; exact ha.units
    · rw [nameAt_concat]
      by_cases en : varName d = net
      · subst en
        simp [dictGet_set_self, Line.name?]
      · rw [dictGet_set_ne _ _ (Ne.symm en), ha.names]
        simp [Line.name?, en]
  | param name value =>
    obtain ⟨r, hl, rfl⟩ := ht
    refine keep (some (.param name (joined value))) rfl (fun _ => rfl) rfl ?_ (by simp)
    rintro x ⟨⟩
    rw [parse_param q hl]
    unfold Parser.param
    rw [setUnits_other q (fun w hw => laid_isWord hl w (by simp [hw])) hg.2, not_isNName hg.1]
    rfl
  | point p =>
    refine keep _ rfl (fun _ => rfl) rfl ?_ (fun e => by cases e)
    rintro x ⟨⟩
    cases ht
    rw [parse_testPoint q hg.1 hg.2.1 (by rw [hang]; exact hg.2.2), hu]
    congr 3
    unfold Parser.substNet
    rw [ha.names, netAt_eq]
    have hnet : (p.record (unitsAt before).1).netName = p.net := rfl
    rw [hnet]
    cases hn : nameAt before p.net with
    | none => split <;> rfl
    | some v => rw [if_pos (nameAt_isNName hb hn)]; rfl
  | conductor net layer size shapes =>
    obtain ⟨g, r, bodies, h1, h2, h3, h4, rfl⟩ := ht
    refine keep _ rfl (fun _ => rfl) rfl ?_ (fun e => by cases e)
    rintro x ⟨⟩
    rw [parse_conductor q hg.1 hg.2.1 hg.2.2.1 hg.2.2.2.1 hg.2.2.2.2.1 hg.2.2.2.2.2 h1 h2 h3 h4, hu]
  | adjacency net others =>
    obtain ⟨r, hl, rfl⟩ := ht
    refine keep _ rfl (fun _ => rfl) rfl ?_ (fun e => by cases e)
    rintro x ⟨⟩
    exact parse_adjacency q hl
  | outline type steps =>
    obtain ⟨r, hl, hr, rfl⟩ := ht
    refine keep _ rfl (fun _ => rfl) rfl ?_ (fun e => by cases e)
    rintro x ⟨⟩
    rw [parse_outline q hg.1 hg.2.1 hg.2.2 hl hr, hu]
  | eof =>
    refine keep _ rfl (fun _ => rfl) rfl ?_ (fun e => by cases e)
    rintro x ⟨⟩
    cases ht
    rfl
  | other s =>
    refine keep none rfl (fun _ => rfl) rfl (by simp) fun _ => ?_
    cases ht
    exact parse_other q hg.1 hg.2

/-! ## Files -/

/-- The records of the lines, in order; each line is understood with the units and names that the lines before it
have chosen. -/
def records : List Line → List Line → List Rec
  | _, [] => []
  | before, l :: ls => (l.record before).toList ++ records (before ++ [l]) ls

/-- The test points: position, net, side. -/
def points : List Line → List Line → List ((ℚ × ℚ) × Str × String)
  | _, [] => []
  | before, .point p :: ls =>
    let u := unitSize (unitsAt before).1
    ((p.x * u, p.y * u), netAt before p.net, accessName p.access) :: points (before ++ [.point p]) ls
  | before, l :: ls => points (before ++ [l]) ls

/-- Every line fits where it stands. -/
def AllGood : List Line → List Line → Prop
  | _, [] => True
  | before, l :: ls => l.Good before ∧ AllGood (before ++ [l]) ls

theorem parse_lines {ls : List Line} {ts : List Str} (ht : List.Forall₂ Line.IsText ls ts) :
    ∀ (before : List Line) (q : Parser), AllGood before ls → After before q →
      (∀ l ∈ before, ∀ d name, l = .naming d name → d ≠ [] ∧ d.all isDig = true) →
      ∃ q', ts.foldlM Parser.parseLine q = .ok q' ∧ After (before ++ ls) q' ∧
        q'.statements = q.statements ++ records before ls := by
  induction ht with
  | nil => exact fun before q _ ha _ => ⟨q, rfl, by simpa using ha, by simp [records]⟩
  | @cons l t ls ts h _ ih =>
    intro before q hg ha hb
    obtain ⟨q1, h1, h2, h3⟩ := parse_one hg.1 h hb ha
    obtain ⟨q2, h4, h5, h6⟩ := ih (before ++ [l]) q1 hg.2 h2 (by
      intro m hm d name e
      rcases List.mem_append.1 hm with hm | hm
      · exact hb m hm d name e
      · simp only [List.mem_singleton] at hm
        subst hm
        subst e
        exact hg.1)
    refine ⟨q2, ?_, by simpa using h5, by rw [h6, h3, records, List.append_assoc]⟩
    rw [List.foldlM_cons, h1]
    exact h4

theorem testPrimitives (before ls : List Line) :
    (testRecords (records before ls)).mapM testPrimitive = .ok (points before ls) := by
  induction ls generalizing before with
  | nil => rfl
  | cons l ls ih =>
    have e : testRecords (records before (l :: ls)) =
        testRecords (l.record before).toList ++ testRecords (records (before ++ [l]) ls) := by
      simp [records, testRecords, List.filterMap_append]
    rw [e]
    cases l with
    | point p =>
      have e2 : testRecords (Line.record before (.point p)).toList =
          [{ p.record (unitsAt before).1 with netName := netAt before p.net }] := rfl
      rw [e2, List.singleton_append, List.mapM_cons, ih]
      rfl
    | other s => simpa [Line.record, testRecords, points] using ih (before ++ [.other s])
    | _ =>
      rw [show testRecords (Option.toList (Line.record before _)) = [] from rfl, List.nil_append, ih]
      rfl

/-! ## The theorem -/

/-- **C60** A netlist file, its lines cut into physical lines or not: the netlist has exactly the records of the
lines, in order; every number is scaled by the unit chosen last before its line; a net name variable stands for
the name given last before the line; each coordinate of a path that is not written is the one before; lines that
are not understood leave nothing.  Missing: test records as in `C54_record_partial`; negative coordinates of paths
(`C60_negative_violated`), types of outlines with blanks (`C60_type_violated`), pieces ending in white space
(C39). -/
theorem C60_file_partial {eol : Str} (he : IsEol eol) {ls : List Line} {texts : List Logical}
    (ht : List.Forall₂ (fun l t => l.IsText t.whole) ls texts) (hc : ∀ t ∈ texts, t.Good) (hg : AllGood [] ls) :
    parseRaw (text eol (texts.flatMap Logical.physical)) = .ok {
      statements := records [] ls
      units := (unitsAt ls).1
      angle := (unitsAt ls).2
      primitives := points [] ls } := by
  have ht' : List.Forall₂ Line.IsText ls (texts.map Logical.whole) := by
    rw [List.forall₂_map_right_iff]
    exact ht
  obtain ⟨q, h1, h2, h3⟩ := parse_lines ht' [] {} hg ⟨rfl, fun _ => rfl⟩ (by simp)
  rw [parseRaw_physical he texts hc, h1]
  have h4 : q.statements = records [] ls := by rw [h3]; rfl
  have h5 : q.units = (unitsAt ls).1 := congrArg Prod.fst h2.units
  have h6 : q.angle = (unitsAt ls).2 := congrArg Prod.snd h2.units
  simp only [Except.bind, Parser.finish, h4, h5, h6, testPrimitives, bind]

theorem laid_of_words {ws : List Str} {s : Str} (h : words s = ws) : Laid ws s := by
  induction ws generalizing s with
  | nil =>
    refine .nil fun c hc => ?_
    by_contra hn
    obtain ⟨a, b, rfl⟩ := List.append_of_mem hc
    have hs : isSpace c = false := by simpa using hn
    have hw : words (a ++ c :: b) ≠ [] := by
      intro e
      have := nil_strip (s := a ++ c :: b) e
      obtain ⟨x, y, e2, hx, hy, -⟩ := strip_parts (a ++ c :: b)
      rw [this, List.append_nil] at e2
      have : c ∈ x ++ y := e2 ▸ (by simp)
      rcases List.mem_append.1 this with h | h
      · exact hn (hx c h)
      · exact hn (hy c h)
    exact hw h
  | cons w ws ih =>
    obtain ⟨a, r, ha, hw, hne, hr, rfl, hws⟩ := Load.words_cons h
    cases r with
    | nil =>
      have : ws = [] := by rw [← hws]; rfl
      subst this
      exact .last ha ⟨hne, hw⟩ (by simp)
    | cons c r =>
      have hc := hr c rfl
      refine .cons ha ⟨hne, hw⟩ c hc (ih ?_)
      rw [← hws, show c :: r = [c] ++ r from rfl,
        Load.words_blank_left (by intro d hd; simp at hd; rw [hd]; exact hc)]

/-- A test point of net `NNAME7`. -/
def somePoint : Point where
  kind := .throughHole
  net := "NNAME7".toList
  id := "VIA".toList
  dash := true
  pin := []
  middle := true
  hole := some 32
  plated := true
  access := 0
  x := -1000
  y := 2500
  plus := '+'
  rectX := none
  rectY := none
  rotation := none
  mask := 3

/-- A netlist with lines of all kinds. -/
def someLines : List Line :=
  [.comment "board 1".toList, .unit .cust1, .naming "7".toList ["GROUND".toList, "PLANE".toList],
   .param "JOB".toList ["x".toList], .point somePoint,
   .conductor "GND".toList 2 ⟨some ⟨4, 150⟩, none⟩
     [[⟨some ⟨5, 100⟩, some ⟨5, 200⟩⟩, ⟨none, some ⟨5, 300⟩⟩], [⟨some ⟨5, 0⟩, some ⟨5, 0⟩⟩]],
   .unit .cust2, .adjacency "A".toList ["B".toList, "C".toList],
   .outline "BOARD_EDGE".toList [⟨some ⟨6, 0⟩, some ⟨6, 0⟩⟩, ⟨some ⟨6, 20000⟩, none⟩, ⟨none, some ⟨6, 10000⟩⟩],
   .other "   ".toList, .eof]

/-- Their text; the conductor is cut within a number. -/
def someTexts : List Logical :=
  [⟨"C  board 1".toList, []⟩, ⟨"P  UNITS  CUST 1".toList, []⟩, ⟨"P  NNAME7  GROUND PLANE".toList, []⟩,
   ⟨"P  JOB x".toList, []⟩, ⟨somePoint.line, []⟩,
   ⟨"378GND            L02 X0150 X00100Y00".toList, [(('7', '8'), "200  Y00300*X00000Y00000".toList)]⟩,
   ⟨"P UNITS CUST 2".toList, []⟩, ⟨"379A B  C".toList, []⟩,
   ⟨"389BOARD_EDGE     X000000Y000000 X020000".toList, [(('8', '9'), " Y010000".toList)]⟩,
   ⟨"   ".toList, []⟩, ⟨"999".toList, []⟩]

theorem someLines_good : AllGood [] someLines := by
  refine ⟨?_, trivial, ?_, ?_, ?_, ?_, trivial, trivial, ?_, ?_, trivial, trivial⟩
  · change strip _ = _; decide +kernel
  · exact ⟨by decide, by decide⟩
  · exact ⟨by decide, fun h => absurd h (by decide)⟩
  · refine ⟨⟨by decide +kernel, by decide +kernel, by decide +kernel, ?_, by decide, by decide, .inl rfl, ?_, ?_, ?_⟩,
      .inl rfl, .inr rfl⟩
    · rintro v ⟨⟩; decide
    all_goals rintro v ⟨⟩
  · refine ⟨by decide, by decide +kernel, by decide, ⟨.inl rfl, ?_, ?_⟩, by decide, ?_⟩
    · rintro n ⟨⟩; exact ⟨by decide, by decide⟩
    · rintro n ⟨⟩
    · simp only [List.mem_cons, List.not_mem_nil, or_false, forall_eq_or_imp, forall_eq]
      refine ⟨⟨⟨.inl rfl, ?_, ?_⟩, ⟨.inr rfl, ?_, ?_⟩⟩, ⟨.inl rfl, ?_, ?_⟩⟩
      all_goals rintro n ⟨⟩; try exact ⟨by decide, by decide⟩
  · refine ⟨by decide, by decide, ?_⟩
    simp only [List.mem_cons, List.not_mem_nil, or_false, forall_eq_or_imp, forall_eq]
    refine ⟨⟨.inl rfl, ?_, ?_⟩, ⟨.inl rfl, ?_, ?_⟩, ⟨.inr rfl, ?_, ?_⟩⟩
    all_goals rintro n ⟨⟩; try exact ⟨by decide, by decide⟩
  · exact ⟨by decide, by decide⟩

theorem someLines_text : List.Forall₂ (fun l t => l.IsText t.whole) someLines someTexts := by
  have hlaid : ∀ {ws : List Str} {s : Str}, words s = ws → Laid ws s := fun h => laid_of_words h
  refine .cons ?_ (.cons ?_ (.cons ?_ (.cons ?_ (.cons ?_ (.cons ?_ (.cons ?_ (.cons ?_ (.cons ?_ (.cons ?_
    (.cons ?_ .nil))))))))))
  · change _ = _; decide
  · exact ⟨" UNITS  CUST 1".toList, hlaid (by decide +kernel), by decide⟩
  · exact ⟨" NNAME7  GROUND PLANE".toList, hlaid (by decide +kernel), by decide⟩
  · exact ⟨" JOB x".toList, hlaid (by decide +kernel), by decide⟩
  · change _ = _; simp [Logical.whole]
  · exact ⟨[], " X00100Y00200  Y00300*X00000Y00000".toList, [" X00100Y00200  Y00300".toList, "X00000Y00000".toList],
      by decide, by decide, by decide, .cons (hlaid (by decide +kernel)) (.cons (hlaid (by decide +kernel)) .nil),
      by decide +kernel⟩
  · exact ⟨"UNITS CUST 2".toList, hlaid (by decide +kernel), by decide⟩
  · exact ⟨"A B  C".toList, hlaid (by decide +kernel), by decide⟩
  · exact ⟨" X000000Y000000 X020000 Y010000".toList, hlaid (by decide +kernel), by decide, by decide +kernel⟩
  · change _ = _; decide
  · change _ = _; decide

/-- Non-vacuous: the board edge is read in inches, the conductor in millimetres, the variable has its name. -/
example : (parseRaw (text ['\n'] (someTexts.flatMap Logical.physical))).map (fun n => (n.units, n.angle, n.primitives,
    n.statements.drop 5)) = .ok ("inch", "radians", [((-1, 5 / 2), "GROUND PLANE".toList, "both")],
      [.conductor "GND".toList 2 (some (3 / 20), none) [[(1 / 10, 1 / 5), (1 / 10, 3 / 10)], [(0, 0)]],
       .param "UNITS".toList "CUST 2".toList, .adjacency "A".toList ["B".toList, "C".toList],
       .outline "BOARD_EDGE".toList [(0, 0), (2, 0), (2, 1)], .eof]) := by
  rw [C60_file_partial (.inl rfl) someLines_text
    (fun t ht => Logical.good_of (by revert t; decide +kernel)) someLines_good]
  refine congrArg Except.ok ?_
  refine Prod.ext (by decide +kernel) (Prod.ext (by decide +kernel) (Prod.ext (by decide +kernel) ?_))
  decide +kernel

/-- **C60 fails** for negative coordinates: the point (-1, 2) of an outline is read as the origin. -/
theorem C60_negative_violated :
    outlineFromLine "389BOARD_EDGE     X-10000Y20000".toList "inch" = .ok (.outline "BOARD_EDGE".toList [(0, 0)]) := by
  decide +kernel

/-- **C60 fails** for types of outlines with a blank: the second word counts as a point. -/
theorem C60_type_violated :
    outlineFromLine "389BOARD EDGE     X10000Y20000".toList "inch" =
      .ok (.outline "BOARD EDGE".toList [(0, 0), (1, 2)]) := by
  decide +kernel

/-! ## C61: views of a netlist -/

/-- The test points among the lines. -/
def Line.point? : Line → Option Point
  | .point p => some p
  | _ => none

theorem testRecords_ids (before ls : List Line) :
    (testRecords (records before ls)).map (·.id) = (ls.filterMap Line.point?).map Point.id := by
  induction ls generalizing before with
  | nil => rfl
  | cons l ls ih =>
    have e : testRecords (records before (l :: ls)) =
        testRecords (l.record before).toList ++ testRecords (records (before ++ [l]) ls) := by
      simp [records, testRecords, List.filterMap_append]
    rw [e, List.map_append, ih]
    cases l <;> rfl

theorem points_sides (before ls : List Line) :
    (points before ls).map (·.2.2) = (ls.filterMap Line.point?).map fun p => accessName p.access := by
  induction ls generalizing before with
  | nil => rfl
  | cons l ls ih =>
    cases l with
    | point p => simp [points, Line.point?, ih]
    | _ => exact ih _

/-- **C61** The components of a netlist are the identifications of its test points other than `VIA`, each once;
there are as many vias as test points with that identification.  (The netlist of a file has the statements
`records [] ls` by `C60_file_partial`.) -/
theorem C61_components (ls : List Line) :
    (components (records [] ls)).Nodup ∧
    (∀ c, c ∈ components (records [] ls) ↔ c ≠ "VIA".toList ∧ ∃ p, Line.point p ∈ ls ∧ p.id = c) ∧
    (vias (records [] ls)).length = (ls.filterMap Line.point?).countP (fun p => p.id = "VIA".toList) := by
  unfold components vias
  rw [testRecords_ids]
  refine ⟨List.nodup_dedup _, fun c => ?_, ?_⟩
  · rw [List.mem_dedup, List.mem_filter, List.mem_map]
    simp only [List.mem_filterMap, decide_eq_true_eq]
    constructor
    · rintro ⟨⟨p, ⟨l, hl, hp⟩, rfl⟩, hv⟩
      refine ⟨hv, p, ?_, rfl⟩
      cases l with
      | point q => cases hp; exact hl
      | _ => cases hp
    · rintro ⟨hv, p, hp, rfl⟩
      exact ⟨⟨p, ⟨_, hp, rfl⟩, rfl⟩, hv⟩
  · rw [List.filter_map, List.length_map, List.countP_eq_length_filter]
    rfl

/-- Non-vacuous: one via, no component. -/
example : vias (records [] someLines) = ["VIA".toList] ∧ components (records [] someLines) = [] := by
  decide +kernel

/-- The test points accessible from a side, or from one of the two. -/
def accessible (side : String) (access : Fin 9) : Bool :=
  access = 0 ∨ (access = 1 ∧ side ≠ "bottom") ∨ (access = 8 ∧ side ≠ "top")

/-- **C61** Rendering a side of the netlist draws the test points accessible from it, in order, and rendering both
sides those accessible from any of them.  Points of inner layers are not drawn. -/
theorem C61_drawn {side : String} (hs : side ∈ ["top", "bottom", "both"]) (ls : List Line) :
    drawn side (points [] ls) = ((ls.filterMap Line.point?).zip (points [] ls)).filterMap fun x =>
      if accessible side x.1.access then some x.2 else none := by
  have key : ∀ (ps : List Point) (qs : List ((ℚ × ℚ) × Str × String)),
      qs.map (·.2.2) = ps.map (fun p => accessName p.access) →
      drawn side qs = (ps.zip qs).filterMap fun x => if accessible side x.1.access then some x.2 else none := by
    intro ps
    induction ps with
    | nil =>
      intro qs h
      rw [List.map_nil, List.map_eq_nil_iff] at h
      subst h; rfl
    | cons p ps ih =>
      intro qs h
      cases qs with
      | nil => cases h
      | cons q qs =>
        rw [List.map_cons, List.map_cons, List.cons.injEq] at h
        have ih := ih qs h.2
        have hone : (if side = "both" ∧ q.2.2 ∈ ["top", "bottom", "both"] then true
            else if side = "top" ∧ q.2.2 ∈ ["top", "both"] then true
            else if side = "bottom" ∧ q.2.2 ∈ ["bottom", "both"] then true else false) =
            accessible side p.access := by
          rw [h.1]
          generalize p.access = a
          have : ∀ s ∈ ["top", "bottom", "both"], ∀ a : Fin 9,
              (if s = "both" ∧ accessName a ∈ ["top", "bottom", "both"] then true
              else if s = "top" ∧ accessName a ∈ ["top", "both"] then true
              else if s = "bottom" ∧ accessName a ∈ ["bottom", "both"] then true else false) =
              accessible s a := by decide +kernel
          exact this side hs a
        unfold drawn at ih ⊢
        rw [List.filter_cons, hone, List.zip_cons_cons, List.filterMap_cons, ← ih]
        cases accessible side p.access <;> rfl
  exact key _ _ (points_sides [] ls)

/-- Non-vacuous: a point accessible from both sides is drawn for the top. -/
example : drawn "top" (points [] someLines) = [((-1, 5 / 2), "GROUND PLANE".toList, "both")] := by decide +kernel

/-- **C61 fails** for boards of two layers: access code 2, their other side, is named `layer2` and never drawn. -/
theorem C61_two_layers_violated : (Line.point { somePoint with access := 2 }).Good [] ∧
    (points [] [.point { somePoint with access := 2 }]).length = 1 ∧
    drawn "bottom" (points [] [.point { somePoint with access := 2 }]) = [] ∧
    drawn "both" (points [] [.point { somePoint with access := 2 }]) = [] := by
  refine ⟨⟨⟨by decide +kernel, by decide +kernel, by decide +kernel, ?_, by decide, by decide, .inl rfl, ?_, ?_, ?_⟩,
      .inl rfl, .inr rfl⟩, by decide +kernel, by decide +kernel, by decide +kernel⟩
  · rintro v ⟨⟩; decide
  all_goals rintro v ⟨⟩

/-- **C61 fails** for test points without identification: there is a component with the empty name. -/
theorem C61_no_id_violated :
    components (records [] [.point { somePoint with id := [] }]) = [[]] := by decide +kernel

/-- **C09 fails** for netlists: a metric netlist is still metric after `to_inch`, its points are where they were. -/
theorem C09_netlist_violated : ∃ n : Netlist,
    parseRaw "P UNITS CUST 1\n317GND              VIA   -    MD0320PA00X+001000Y+002500X    Y    R    S3\n".toList = .ok n ∧
    n.units = "metric" ∧ n.toInch.units = "metric" ∧ n.toInch.primitives = [((1, 5 / 2), "GND".toList, "both")] := by
  refine ⟨_, rfl, ?_⟩
  decide +kernel

end Verif.Ipc
