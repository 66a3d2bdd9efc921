import Verif.Spec.ToolTable
import Verif.Lemmas.ExcellonTool
import Verif.Lemmas.ExcellonWrite
import Verif.Lemmas.Dict
import Verif.Props.Ipc
import Verif.Props.Parse
import Verif.Model.ExcellonTool

/-! # Tool tables define exactly the tools they list (C55) -/

namespace Verif.Py.Re

/-- `(?P<n>[class]+) k` with backtracking. -/
theorem First.grp_plus_backtrack {p : Char → Bool} {n : String} {k : Re} {a b u r : Str} {cs : Caps}
    (hne : a ≠ []) (ha : a.all p = true) (hk : First k b (u, cs, r))
    (hfail : ∀ c t, b = c :: t → p c = true → ∀ t1 t2, t = t1 ++ t2 → t1.all p = true →
      Fails k t2) :
    First (.seq (.grp n (plus p)) k) (a ++ b) (a ++ u, (n, a) :: cs, r) := by
  obtain ⟨x, a, rfl⟩ := List.exists_cons_of_ne_nil hne
  simp only [List.all_cons, Bool.and_eq_true] at ha
  have h := First.grp_star_backtrack (n := n) ha.2 hk hfail
  unfold First at h ⊢
  have e : (Re.seq (.grp n (plus p)) k).run (x :: a ++ b) =
      ((Re.seq (.grp n (.star p)) k).run (a ++ b)).map
        (fun y => (x :: y.1, (n, x :: (match y.2.1 with
              | [] => []
              | (_, v) :: _ => v)) :: y.2.1.tail, y.2.2)) := by
    simp only [plus, Re.run, List.cons_append, ha.1, if_true, List.flatMap_cons, List.flatMap_nil, List.append_nil,
      List.map_map, List.flatMap_map, List.map_flatMap]
    rfl
  rw [e, List.head?_map, h]
  rfl

/-- Every match contains the character. -/
def Needs (c : Char) (a : Re) : Prop := ∀ s, ∀ m ∈ a.run s, c ∈ m.1

theorem Needs.lit (c : Char) : Needs c (Re.lit c) := by
  intro s m hm
  cases s with
  | nil => cases hm
  | cons d s =>
    simp only [Re.lit, Re.run] at hm
    split at hm
    · simp at hm; subst hm; simp_all
    · cases hm

theorem Needs.seq_left {c : Char} {a b : Re} (h : Needs c a) : Needs c (.seq a b) := by
  intro s m hm
  simp only [Re.run, List.mem_flatMap, List.mem_map] at hm
  obtain ⟨x, hx, y, _, rfl⟩ := hm
  exact List.mem_append_left _ (h _ _ hx)

theorem Needs.seq_right {c : Char} {a b : Re} (h : Needs c b) : Needs c (.seq a b) := by
  intro s m hm
  simp only [Re.run, List.mem_flatMap, List.mem_map] at hm
  obtain ⟨x, _, y, hy, rfl⟩ := hm
  exact List.mem_append_right _ (h _ _ hy)

theorem Needs.str {c : Char} {t : Str} (h : c ∈ t) : Needs c (Re.str t) := by
  induction t with
  | nil => cases h
  | cons d t ih =>
    have : Re.str (d :: t) = (match t with | [] => Re.lit d | _ => .seq (Re.lit d) (Re.str t)) := by
      cases t <;> rfl
    rw [this]
    rcases List.mem_cons.1 h with rfl | h
    · cases t with
      | nil => exact Needs.lit _
      | cons e t => exact (Needs.lit _).seq_left
    · cases t with
      | nil => cases h
      | cons e t => exact (ih h).seq_right

theorem Needs.cat {c : Char} {l : List Re} {a : Re} (hm : a ∈ l) (h : Needs c a) : Needs c (Re.cat l) := by
  induction l with
  | nil => cases hm
  | cons b l ih =>
    have : Re.cat (b :: l) = (match l with | [] => b | _ => .seq b (Re.cat l)) := by cases l <;> rfl
    rw [this]
    rcases List.mem_cons.1 hm with rfl | hm
    · cases l with
      | nil => exact h
      | cons e t => exact h.seq_left
    · cases l with
      | nil => cases hm
      | cons e t => exact (ih hm).seq_right

theorem Needs.fails {c : Char} {a : Re} (h : Needs c a) {s : Str} (hs : c ∉ s) : Fails a s := by
  unfold Fails
  rw [List.eq_nil_iff_forall_not_mem]
  intro m hm
  apply hs
  rw [run_split a s m hm]
  exact List.mem_append_left _ (h s m hm)

end Verif.Py.Re

namespace Verif.Excellon
open Verif.Py Verif.Py.Re Verif.Cam Verif.Utils Spec

/-! ## Numbers -/

/-- Characters of sizes. -/
def sizeCh (c : Char) : Bool := isDig c || c == '/' || c == '.'

theorem sizeCh_of_isDig {c : Char} (h : isDig c = true) : sizeCh c = true := by simp [sizeCh, h]

theorem Spec.Decimal.text_all (d : Decimal) : d.text.all sizeCh = true := by
  unfold Decimal.text
  rw [List.all_append, List.all_cons, all_mono (natStr_all _) fun c => sizeCh_of_isDig,
    all_mono (all_fixDigits _ _) fun c => sizeCh_of_isDig]
  rfl

theorem Spec.Decimal.text_ne (d : Decimal) : d.text ≠ [] := by
  unfold Decimal.text; simp

theorem Spec.Decimal.pyFloat {d : Decimal} (h : d.Fits) : pyFloat d.text = .ok d.value := by
  unfold Decimal.text Decimal.value
  rw [pyFloat_point (natStr_all _) (all_fixDigits _ _) (by simp [natStr_ne_nil]), natVal_append, natVal_natStr,
    natVal_fixDigits_of_lt h, length_fixDigits]
  congr 1
  have : (10 : ℚ) ^ d.places ≠ 0 := by positivity
  push_cast
  field_simp

theorem Spec.Decimal.no_S (d : Decimal) : 'S' ∉ d.text := by
  intro h
  have := List.all_eq_true.1 d.text_all _ h
  revert this; decide

theorem natStr_no_S (n : ℕ) : 'S' ∉ natStr n := by
  intro h
  have := List.all_eq_true.1 (natStr_all n) _ h
  revert this; decide

/-! ## Matching -/

theorem first_size (n : String) {d : Decimal} {c : Char} {s : Str} (hc : sizeCh c = false) :
    First (reSize n) (d.text ++ c :: s) (d.text, [(n, d.text)], c :: s) :=
  First.grp (First.plus_append d.text_ne d.text_all (by intro x t hx; cases hx; exact hc))

theorem first_id (n : String) {v : ℕ} (hv : v < 100) {c : Char} {s : Str} (hc : isDig c = false) :
    First (reId n) (natStr v ++ c :: s) (natStr v, [(n, natStr v)], c :: s) := by
  refine First.grp ?_
  have hl := natStr_length_le (w := 2) (by norm_num) (n := v) (by omega)
  have ha := natStr_all v
  have hne := natStr_ne_nil v
  match hq : natStr v with
  | [] => exact (hne hq).elim
  | [a] =>
    rw [hq] at ha
    simp only [List.all_cons, List.all_nil, Bool.and_true] at ha
    exact First.seq (First.chr ha) (First.opt_none (Fails.chr hc))
  | [a, b] =>
    rw [hq] at ha
    simp only [List.all_cons, List.all_nil, Bool.and_true, Bool.and_eq_true] at ha
    exact First.seq (First.chr ha.1) (First.opt_some (First.chr ha.2))
  | a :: b :: d :: l => rw [hq] at hl; simp at hl

theorem first_plating (p : Plating) (s : Str) :
    First (.grp "plated" (.alt (str "PLATED".toList) (.alt (str "NON_PLATED".toList) (str "OPTIONAL".toList))))
      (p.word ++ s) (p.word, [("plated", p.word)], s) := by
  refine First.grp ?_
  cases p with
  | plated => exact First.alt_left (First.str _ _)
  | nonPlated => exact First.alt_right (Fails.str_head (by decide)) (First.alt_left (First.str _ _))
  | optional =>
    exact First.alt_right (Fails.str_head (by decide)) (First.alt_right (Fails.str_head (by decide)) (First.str _ _))

theorem sizeCh_tail {s : Str} : ∀ c t, '/' :: '-' :: s = c :: t → sizeCh c = true → ∀ t1 t2, t = t1 ++ t2 →
    t1.all sizeCh = true → t2 = '-' :: s := by
  intro c t h _ t1 t2 h2 h3
  simp only [List.cons.injEq] at h
  rw [← h.2] at h2
  cases t1 with
  | nil => exact h2.symm
  | cons x t1 =>
    simp only [List.cons_append, List.cons.injEq] at h2
    rw [← h2.1] at h3
    simp only [List.all_cons, Bool.and_eq_true] at h3
    exact absurd h3.1 (by decide)

theorem first_holesize {size x y : Decimal} (p : Plating) (unit : Str) (q : ℕ) :
    ∃ u, First (cat (reHolesize unit)) (". = ".toList ++ (size.text ++ (" Tolerance = +".toList ++ (x.text ++
      ("/-".toList ++ (y.text ++ (' ' :: (p.word ++ (unit ++ (" Quantity = ".toList ++ natStr q))))))))))
      (u, [("size", size.text), ("xtol", x.text), ("ytol", y.text), ("plated", p.word)], []) := by
  have hq : First (plus isDig) (natStr q) (natStr q, [], []) := by
    have := First.plus_append (p := isDig) (b := []) (natStr_ne_nil q) (natStr_all q) (by intro c t h; cases h)
    rwa [List.append_nil] at this
  have h1 := First.seq (First.str " Quantity = ".toList _) hq
  have h2 := First.seq (First.str unit _) h1
  have h3 := First.seq (first_plating p _) h2
  have h4 := First.seq (First.lit (c := ' ')) h3
  have h5 := First.seq (first_size "ytol" (d := y) (c := ' ') (by decide)) h4
  have h6 := First.seq (First.str "/-".toList _) h5
  have h7 := First.grp_plus_backtrack (n := "xtol") x.text_ne x.text_all h6 (by
    intro c t h hc t1 t2 h2 h3
    rw [sizeCh_tail c t h hc t1 t2 h2 h3]
    exact Fails.seq_left (Fails.str_head (by decide)))
  have h8 := First.seq (First.str " Tolerance = +".toList _) h7
  have h9 := First.seq (first_size "size" (d := size) (c := ' ') (by decide)) h8
  have h10 := First.seq (First.str ". = ".toList _) h9
  exact ⟨_, h10⟩

/-- The line from the dot on. -/
def Spec.ToolEntry.rest (e : ToolEntry) : Str :=
  ". = ".toList ++ (e.size.text ++ (" Tolerance = +".toList ++ (e.plusTol.text ++
      ("/-".toList ++ (e.minusTol.text ++ (' ' :: (e.plating.word ++ ((' ' :: e.measure.word) ++
        (" Quantity = ".toList ++ natStr e.quantity)))))))))

theorem Spec.ToolEntry.line_eq (e : ToolEntry) : e.line =
    if e.prefixed then 'T' :: (natStr e.number ++ (" Holesize ".toList ++ (natStr e.number ++ e.rest)))
    else "Holesize ".toList ++ (natStr e.number ++ e.rest) := by
  unfold ToolEntry.line ToolEntry.rest
  generalize natStr e.number = n, e.size.text = a, e.plusTol.text = b, e.minusTol.text = c, e.plating.word = d,
    e.measure.word = f, natStr e.quantity = g, ". = ".toList = s1, " Tolerance = +".toList = s2, "/-".toList = s3,
    " Quantity = ".toList = s5, " Holesize ".toList = s6, "Holesize ".toList = s7
  rw [show " ".toList = [' '] from rfl]
  split <;> simp only [List.append_assoc, List.cons_append, List.nil_append]

/-- What the line says, as captured groups. -/
def Spec.ToolEntry.groups (e : ToolEntry) : Caps :=
  ("toolid", natStr e.number) :: ((if e.prefixed then [("toolid2", natStr e.number)] else []) ++
    [("size", e.size.text), ("xtol", e.plusTol.text), ("ytol", e.minusTol.text), ("plated", e.plating.word)])

theorem match_plain {e : ToolEntry} (h : e.Fits) (hp : e.prefixed = false) :
    (reComment (' ' :: e.measure.word)).pyMatch e.line = some (e.groups, []) := by
  obtain ⟨u, hu⟩ := first_holesize (size := e.size) (x := e.plusTol) (y := e.minusTol) e.plating
    (' ' :: e.measure.word) e.quantity
  rw [e.line_eq, hp]
  have h1 := First.seq (first_id "toolid" h.number (c := '.') (by decide)) hu
  have h2 := First.seq (First.str "Holesize ".toList _) h1
  have := First.pyMatch h2
  unfold ToolEntry.groups
  rw [hp]
  exact this

theorem match_prefixed {e : ToolEntry} (h : e.Fits) (hp : e.prefixed = true) :
    (reComment2 (' ' :: e.measure.word)).pyMatch e.line = some (e.groups, []) := by
  obtain ⟨u, hu⟩ := first_holesize (size := e.size) (x := e.plusTol) (y := e.minusTol) e.plating
    (' ' :: e.measure.word) e.quantity
  rw [e.line_eq, hp]
  have h1 := First.seq (first_id "toolid2" h.number (c := '.') (by decide)) hu
  have h2 := First.seq (First.str " Holesize ".toList _) h1
  have h3 := First.seq (first_id "toolid" h.number (c := ' ') (by decide)) h2
  have h4 := First.seq (First.lit (c := 'T')) h3
  have := First.pyMatch h4
  unfold ToolEntry.groups
  rw [hp]
  exact this

theorem Spec.ToolEntry.no_S {e : ToolEntry} (h : e.measure = .mm) : 'S' ∉ e.line := by
  have hr : 'S' ∉ e.rest := by
    unfold ToolEntry.rest
    simp only [List.mem_append, List.mem_cons, not_or, e.size.no_S, e.plusTol.no_S, e.minusTol.no_S, natStr_no_S, h]
    refine ⟨by decide, not_false, by decide, not_false, by decide, not_false, by decide, ?_, ?_⟩
    · cases e.plating <;> decide
    · decide
  rw [e.line_eq]
  split
  · simp only [List.mem_append, List.mem_cons, not_or, natStr_no_S, hr]
    exact ⟨by decide, by decide, by decide, by decide, by decide⟩
  · simp only [List.mem_append, not_or, natStr_no_S, hr]
    exact ⟨by decide, by decide, by decide⟩

theorem needs_S (l : List Re) : Needs 'S' (cat (l ++ reHolesize " MILS".toList)) :=
  Needs.cat (a := str " MILS".toList) (by simp [reHolesize]) (Needs.str (by decide))

theorem size_fails (n : String) (k : Re) {c : Char} {s : Str} (h : sizeCh c = false) : Fails (.seq (reSize n) k) (c :: s) :=
  Fails.seq_left (Fails.grp (Fails.plus h))

/-- The matcher that applies, with its unit. -/
theorem find_entry {e : ToolEntry} (h : e.Fits) :
    (matchers.findSome? fun m => (m.1.pyMatch e.line).map fun r => (r.1, m.2)) =
      some (e.groups, decide (e.measure = .mils)) := by
  have hl := e.line_eq
  have f0 : reAllegroTool.pyMatch e.line = none := by
    rw [hl]
    split
    · exact Fails.pyMatch (size_fails "size" _ (by decide))
    · exact Fails.pyMatch (size_fails "size" _ (by decide))
  cases hp : e.prefixed with
  | false =>
    have hm := match_plain h hp
    have f1 : ∀ u, (reComment2 u).pyMatch e.line = none := by
      intro u
      rw [hl, hp]
      exact Fails.pyMatch (Fails.seq_left (Fails.lit (by decide)))
    cases hu : e.measure with
    | mils =>
      rw [hu] at hm
      have hm : (reComment " MILS".toList).pyMatch e.line = some (e.groups, []) := hm
      simp only [matchers, List.findSome?_cons, f0, hm, Option.map_none, Option.map_some]
      rfl
    | mm =>
      rw [hu] at hm
      have hm : (reComment " MM".toList).pyMatch e.line = some (e.groups, []) := hm
      have f2 : (reComment " MILS".toList).pyMatch e.line = none :=
        Fails.pyMatch ((needs_S _).fails (e.no_S hu))
      simp only [matchers, List.findSome?_cons, f0, f1, f2, hm, Option.map_none, Option.map_some]
      rfl
  | true =>
    have hm := match_prefixed h hp
    have f1 : ∀ u, (reComment u).pyMatch e.line = none := by
      intro u
      rw [hl, hp]
      exact Fails.pyMatch (Fails.seq_left (Fails.str_head (by decide)))
    cases hu : e.measure with
    | mils =>
      rw [hu] at hm
      have hm : (reComment2 " MILS".toList).pyMatch e.line = some (e.groups, []) := hm
      simp only [matchers, List.findSome?_cons, f0, f1, hm, Option.map_none, Option.map_some]
      rfl
    | mm =>
      rw [hu] at hm
      have hm : (reComment2 " MM".toList).pyMatch e.line = some (e.groups, []) := hm
      have f2 : (reComment2 " MILS".toList).pyMatch e.line = none :=
        Fails.pyMatch ((needs_S _).fails (e.no_S hu))
      simp only [matchers, List.findSome?_cons, f0, f1, f2, hm, Option.map_none, Option.map_some]
      rfl

/-- The tool of an entry, with a given diameter. -/
def Spec.ToolEntry.tool (e : ToolEntry) (d : ℚ) : Tool :=
  { settings := none, number := e.number, diameter := some d, plated := some e.plating.name }

theorem convert_near (units : String) {v : ℚ} (hv : 0 ≤ v) (m : TableUnit) :
    Near (convertLength units v (decide (m = .mils))) (v * m.size (decide (units = "inch"))) := by
  unfold Near convertLength TableUnit.size
  by_cases hu : units = "inch" <;> cases m <;> simp only [hu, if_true, if_false, decide_true, decide_false,
    reduceCtorEq, Bool.false_eq_true] <;> rw [abs_le] <;> constructor <;> norm_num <;> linarith

theorem Spec.Decimal.nonneg (d : Decimal) : 0 ≤ d.value := by unfold Decimal.value; positivity

theorem groups_get (e : ToolEntry) : e.groups.get "size" = some e.size.text ∧
    e.groups.get "toolid" = some (natStr e.number) ∧ e.groups.get "xtol" = some e.plusTol.text ∧
    e.groups.get "ytol" = some e.minusTol.text ∧ e.groups.get "plated" = some e.plating.word := by
  unfold ToolEntry.groups
  generalize natStr e.number = a, e.size.text = b, e.plusTol.text = c, e.minusTol.text = d, e.plating.word = f
  cases e.prefixed <;> exact ⟨rfl, rfl, rfl, rfl, rfl⟩

/-- **C55** A comment line of a tool table defines the tool of its number, with its diameter in the unit
of the file (up to the accuracy of the conversion factor) and its plating, and changes no other tool. -/
theorem C55_comment {e : ToolEntry} (h : e.Fits) (units : String) (tools : List (ℤ × Tool)) :
    ∃ d, Near d (e.size.value * e.measure.size (decide (units = "inch"))) ∧
      (e.measure = .mm → units ≠ "inch" → d = e.size.value) ∧
      toolDefLine units tools e.line = .ok (dictSet tools e.number (e.tool d)) := by
  refine ⟨convertLength units e.size.value (decide (e.measure = .mils)), convert_near units e.size.nonneg _, ?_, ?_⟩
  · intro h1 h2
    simp [convertLength, h1, h2]
  · unfold toolDefLine
    rw [find_entry h]
    obtain ⟨g1, g2, g3, g4, g5⟩ := groups_get e
    have hpl : platedOf e.plating.word = some e.plating.name := by cases e.plating <;> decide
    have c2 := e.size.pyFloat h.size
    have c3 := e.plusTol.pyFloat h.plusTol
    have c4 := e.minusTol.pyFloat h.minusTol
    generalize e.groups = cs at *
    simp only [g1, g2, g3, g4, g5, Option.getD_some, c2, c3, c4, pyInt_natStr, bind, Except.bind, hpl]
    rfl

/-- A gap between columns. -/
def gapOf (n : ℕ) : Str := List.replicate (n + 1) ' '

theorem first_gap (n : ℕ) {c : Char} {s : Str} (hc : isSpace c = false) :
    First reBlank (gapOf n ++ c :: s) (gapOf n, [], c :: s) :=
  First.plus_append (by simp [gapOf]) (by simp [gapOf, List.all_replicate, isSpace])
    (by intro x t hx; cases hx; exact hc)

theorem Spec.TableEntry.line_eq (e : TableEntry) : e.line = e.size.text ++ (gapOf (e.gaps 0) ++
    ((if e.plated then 'P' else 'N') :: (gapOf (e.gaps 1) ++ ('T' :: (fixDigits 2 e.number ++ (gapOf (e.gaps 2) ++
      (e.plusTol.text ++ (gapOf (e.gaps 3) ++ e.minusTol.text)))))))) := by
  unfold TableEntry.line gapOf
  simp only [List.append_assoc, List.cons_append, List.nil_append]

theorem gap_cons (n : ℕ) (s : Str) : gapOf n ++ s = ' ' :: (List.replicate n ' ' ++ s) := by
  simp [gapOf, List.replicate_succ]

theorem Spec.Decimal.cons (d : Decimal) : ∃ c t, d.text = c :: t ∧ isDig c = true := by
  unfold Decimal.text
  cases h : natStr d.whole with
  | nil => exact (natStr_ne_nil _ h).elim
  | cons c t =>
    have := natStr_all d.whole
    rw [h, List.all_cons, Bool.and_eq_true] at this
    exact ⟨c, _, rfl, this.1⟩

theorem first_gap' (n : ℕ) {s : Str} (hs : ∀ c t, s = c :: t → isSpace c = false) :
    First reBlank (gapOf n ++ s) (gapOf n, [], s) :=
  First.plus_append (by simp [gapOf]) (by simp [gapOf, List.all_replicate, isSpace]) hs

theorem first_size' (n : String) (d : Decimal) {s : Str} (hs : ∀ c t, s = c :: t → sizeCh c = false) :
    First (reSize n) (d.text ++ s) (d.text, [(n, d.text)], s) :=
  First.grp (First.plus_append d.text_ne d.text_all hs)

theorem gap_size (n : ℕ) (s : Str) : ∀ c t, gapOf n ++ s = c :: t → sizeCh c = false := by
  intro c t h
  rw [gap_cons] at h
  cases h
  rfl

theorem Spec.Decimal.no_space (d : Decimal) (s : Str) : ∀ c t, d.text ++ s = c :: t → isSpace c = false := by
  obtain ⟨c, t, h, hd⟩ := d.cons
  intro c' t' h'
  rw [h] at h'
  cases h'
  exact not_isSpace_of_isDig hd

theorem match_table (e : TableEntry) : reAllegroTool.pyMatch e.line = some
    ([("size", e.size.text), ("plated", [if e.plated then 'P' else 'N']), ("toolid", fixDigits 2 e.number),
      ("xtol", e.plusTol.text), ("ytol", e.minusTol.text)], []) := by
  have hy : First (reSize "ytol") (e.minusTol.text ++ []) (e.minusTol.text, [("ytol", e.minusTol.text)], []) :=
    first_size' _ _ (by intro c t h; cases h)
  have h1 := First.seq (first_gap' (e.gaps 3) (e.minusTol.no_space [])) hy
  have h2 := First.seq (first_size' "xtol" e.plusTol (gap_size _ _)) h1
  have h3 := First.seq (first_gap' (e.gaps 2) (e.plusTol.no_space _)) h2
  have h4 := First.seq (First.grp (n := "toolid") (First.seq (First.chr (p := isDig) (c := digChar (e.number / 10))
    (isDig_digChar _)) (First.chr (p := isDig) (c := digChar e.number) (isDig_digChar _)))) h3
  have h5 := First.seq (First.lit (c := 'T')) h4
  have h6 := First.seq (first_gap (e.gaps 1) (c := 'T') (by decide)) h5
  have h7 : ∀ s, First (.grp "plated" (.alt (lit 'P') (lit 'N'))) ((if e.plated then 'P' else 'N') :: s)
      ([if e.plated then 'P' else 'N'], [("plated", [if e.plated then 'P' else 'N'])], s) := by
    intro s
    refine First.grp ?_
    cases e.plated
    · exact First.alt_right (Fails.lit (by decide)) First.lit
    · exact First.alt_left First.lit
  have h8 := First.seq (h7 _) h6
  have h9 := First.seq (first_gap (e.gaps 0) (by cases e.plated <;> decide)) h8
  have h10 := First.seq (first_size' "size" e.size (gap_size _ _)) h9
  have := First.pyMatch h10
  rw [List.append_nil e.minusTol.text] at this
  rw [e.line_eq]
  exact this

/-- **C55** A line of a table of sizes in mils defines the tool of its number with its diameter in the unit of
the file, and changes no other tool.  Missing: the plating (`C55_table_plating_violated`). -/
theorem C55_table_partial {e : TableEntry} (h : e.Fits) (units : String) (tools : List (ℤ × Tool)) :
    ∃ d, Near d (e.size.value * TableUnit.mils.size (decide (units = "inch"))) ∧
      toolDefLine units tools e.line = .ok (dictSet tools e.number
        { settings := none, number := e.number, diameter := some d, plated := none }) := by
  refine ⟨convertLength units e.size.value true, convert_near units e.size.nonneg .mils, ?_⟩
  unfold toolDefLine
  have hm : (matchers.findSome? fun m => (m.1.pyMatch e.line).map fun r => (r.1, m.2)) =
      some ([("size", e.size.text), ("plated", [if e.plated then 'P' else 'N']), ("toolid", fixDigits 2 e.number),
      ("xtol", e.plusTol.text), ("ytol", e.minusTol.text)], true) := by
    simp only [matchers, List.findSome?_cons, match_table, Option.map_some]
  rw [hm]
  have hi : pyInt (fixDigits 2 e.number) = .ok (e.number : ℤ) := by
    rw [pyInt_digits (all_fixDigits _ _) (by
      intro h; have := length_fixDigits 2 e.number; rw [h] at this; cases this),
      natVal_fixDigits_of_lt (by have := h.number; omega)]
  have c2 := e.size.pyFloat h.size
  have c3 := e.plusTol.pyFloat h.plusTol
  have c4 := e.minusTol.pyFloat h.minusTol
  have hpl : platedOf [if e.plated then 'P' else 'N'] = none := by cases e.plated <;> decide
  generalize e.size.text = a, e.plusTol.text = b, e.minusTol.text = c, fixDigits 2 e.number = i at *
  simp only [Caps.get, List.lookup]
  simp only [show ("toolid" == "size") = false by decide, show ("toolid" == "plated") = false by decide,
    show ("xtol" == "size") = false by decide, show ("xtol" == "plated") = false by decide,
    show ("xtol" == "toolid") = false by decide, show ("ytol" == "size") = false by decide,
    show ("ytol" == "plated") = false by decide, show ("ytol" == "toolid") = false by decide,
    show ("ytol" == "xtol") = false by decide, show ("plated" == "size") = false by decide, beq_self_eq_true,
    Option.getD_some, c2, c3, c4, hi, bind, Except.bind, hpl]

/-- A tool table calls tool 1 plated; the tool read says nothing about it. -/
theorem C55_table_plating_violated :
    toolDefs "inch" "13.0      P      T01     0.0     0.0\n".toList = .ok [(1,
      { settings := none, number := 1, diameter := some (13 / (393700787402 / 10 ^ 10) / (254 / 10)),
        plated := none })] := by decide +kernel

/-- A size written as a fraction is matched, but cannot be read. -/
theorem C55_fraction_violated :
    toolDefs "inch" "1/16      P      T01     0.0     0.0\n".toList = .error .valueError := by decide +kernel

/-! ## Whole tables -/

theorem Spec.ToolItem.toolDef_other {s : Str} (h : (ToolItem.other s).Good) (units : String)
    (tools : List (ℤ × Tool)) : toolDefLine units tools (strip s) = .ok tools := by
  have hf : (matchers.findSome? fun m => (m.1.pyMatch (strip s)).map fun r => (r.1, m.2)) = none := by
    have h2 := h.2
    cases hs : strip s with
    | nil => decide +kernel
    | cons c t =>
      rw [hs] at h2
      obtain ⟨a1, a2, a3, a4, a5⟩ := h2 c rfl
      have f0 : reAllegroTool.pyMatch (c :: t) = none :=
        Fails.pyMatch (size_fails "size" _ (by simp [sizeCh, a1, a2, a3]))
      have f1 : ∀ u, (reComment u).pyMatch (c :: t) = none := fun u =>
        Fails.pyMatch (Fails.seq_left (Fails.str_head a4))
      have f2 : ∀ u, (reComment2 u).pyMatch (c :: t) = none := fun u =>
        Fails.pyMatch (Fails.seq_left (Fails.lit a5))
      simp only [matchers, List.findSome?_cons, f0, f1, f2, Option.map_none, List.findSome?_nil]
  unfold toolDefLine
  rw [hf]

theorem strip_of_ends {s : Str} (h1 : ∀ c ∈ s.head?, isSpace c = false) (h2 : ∀ c ∈ s.getLast?, isSpace c = false) :
    strip s = s := by
  cases s with
  | nil => rfl
  | cons c s =>
    cases s using List.reverseRecOn with
    | nil => exact strip_of_no_space (by simp [h1 c rfl])
    | append_singleton s d _ =>
      exact Gerber.strip_ends (h1 c rfl) (h2 d (by rw [← List.cons_append, List.getLast?_concat]; rfl))

theorem last_of_all {p : Char → Bool} {a s : Str} (hs : s ≠ []) (ha : s.all p = true) :
    ∀ c ∈ (a ++ s).getLast?, p c = true := by
  intro c hc
  rw [List.getLast?_append_of_ne_nil _ hs] at hc
  exact List.all_eq_true.1 ha c (List.mem_of_getLast? hc)

theorem Spec.ToolEntry.strip_line (e : ToolEntry) : strip e.line = e.line := by
  refine strip_of_ends ?_ ?_
  · rw [e.line_eq]
    split <;> (intro c hc; cases hc; decide)
  · intro c hc
    exact not_isSpace_of_isDig (last_of_all (natStr_ne_nil e.quantity) (natStr_all _) c hc)

theorem sizeCh_not_space {c : Char} (h : sizeCh c = true) : isSpace c = false := by
  simp only [sizeCh, Bool.or_eq_true, beq_iff_eq] at h
  rcases h with (h | rfl) | rfl
  · exact not_isSpace_of_isDig h
  · decide
  · decide

theorem Spec.TableEntry.strip_line (e : TableEntry) : strip e.line = e.line := by
  refine strip_of_ends ?_ ?_
  · rw [e.line_eq]
    intro c hc
    obtain ⟨t, ht⟩ := List.head?_eq_some_iff.1 hc
    exact e.size.no_space _ c t ht
  · intro c hc
    unfold TableEntry.line at hc
    exact sizeCh_not_space (last_of_all e.minusTol.text_ne e.minusTol.text_all c hc)

/-- The tool read for an item. -/
def Spec.IsTool (t : Tool) (x : ℕ × ℚ × Option Plating) : Prop :=
  t.number = x.1 ∧ (∃ d, t.diameter = some d ∧ Near d x.2.1) ∧ t.plated = x.2.2.map Plating.name

theorem item_line {it : ToolItem} (h : it.Good) {w : Str} (hw : ∀ c ∈ w, isSpace c = true) (units : String)
    (tools : List (ℤ × Tool)) :
    match it.says (decide (units = "inch")) with
    | some x => ∃ t, IsTool t x ∧ toolDefLine units tools (strip (it.text ++ w)) = .ok (dictSet tools x.1 t)
    | none => toolDefLine units tools (strip (it.text ++ w)) = .ok tools := by
  rw [Ipc.strip_spaces hw]
  cases it with
  | comment e =>
    obtain ⟨d, h1, _, h3⟩ := C55_comment h units tools
    simp only [ToolItem.says, ToolItem.text, e.strip_line]
    exact ⟨_, ⟨rfl, ⟨d, rfl, h1⟩, rfl⟩, h3⟩
  | table e =>
    obtain ⟨d, h1, h3⟩ := C55_table_partial h units tools
    simp only [ToolItem.says, ToolItem.text, e.strip_line]
    exact ⟨_, ⟨rfl, ⟨d, rfl, h1⟩, rfl⟩, h3⟩
  | other s => exact ToolItem.toolDef_other h units tools

/-- What a table says about a number: the last line with that number. -/
def Spec.lastOf (inch : Bool) (items : List ToolItem) (n : ℤ) : Option (ℕ × ℚ × Option Plating) :=
  (items.filterMap (ToolItem.says inch)).reverse.find? fun x => (x.1 : ℤ) = n

/-- **C55** A whole tool table (any mixture of entries and other lines, with line feeds or carriage returns and
line feeds, lines possibly followed by blanks): for each number the table has exactly the tool of the last line
with that number, and no tool if there is no such line.  Missing: the plating in table lines
(`C55_table_plating_violated`). -/
theorem C55_tools_partial {items : List (ToolItem × Str)} (h : ∀ x ∈ items, x.1.Good ∧ '\n' ∉ x.1.text ∧
    ∀ c ∈ x.2, isSpace c = true ∧ c ≠ '\n') (units : String) :
    ∃ tools, toolDefs units (unlines (items.map fun x => x.1.text ++ x.2)) = .ok tools ∧
      ∀ n : ℤ, match lastOf (decide (units = "inch")) (items.map (·.1)) n with
        | some x => ∃ t, dictGet tools n = some t ∧ IsTool t x
        | none => dictGet tools n = none := by
  unfold toolDefs
  rw [pyLines_unlines (by
    intro s hs hn
    obtain ⟨x, hx, rfl⟩ := List.mem_map.1 hs
    rcases List.mem_append.1 hn with hn | hn
    · exact (h x hx).2.1 hn
    · exact ((h x hx).2.2 _ hn).2 rfl)]
  induction items using List.reverseRecOn with
  | nil => exact ⟨[], rfl, fun n => by simp [lastOf, dictGet]⟩
  | append_singleton items x ih =>
    obtain ⟨tools, h1, h2⟩ := ih fun y hy => h y (by simp [hy])
    have hx := h x (by simp)
    have hl := item_line hx.1 (fun c hc => (hx.2.2 c hc).1) units tools
    rw [List.map_append, List.foldlM_append, h1]
    simp only [bind, Except.bind, List.map_cons, List.map_nil, List.foldlM_cons, List.foldlM_nil]
    cases hs : x.1.says (decide (units = "inch")) with
    | none =>
      rw [hs] at hl
      refine ⟨tools, by simp only [hl, pure, Except.pure], fun n => ?_⟩
      have : lastOf (decide (units = "inch")) (List.map (·.1) (items ++ [x])) n =
          lastOf (decide (units = "inch")) (items.map (·.1)) n := by
        simp [lastOf, hs]
      rw [this]
      exact h2 n
    | some y =>
      rw [hs] at hl
      obtain ⟨t, ht, hl⟩ := hl
      refine ⟨dictSet tools y.1 t, by simp only [hl, pure, Except.pure], fun n => ?_⟩
      by_cases hn : (y.1 : ℤ) = n
      · have : lastOf (decide (units = "inch")) (List.map (·.1) (items ++ [x])) n = some y := by
          simp [lastOf, hs, hn]
        rw [this]
        exact ⟨t, by rw [← hn, dictGet_set_self], ht⟩
      · have : lastOf (decide (units = "inch")) (List.map (·.1) (items ++ [x])) n =
            lastOf (decide (units = "inch")) (items.map (·.1)) n := by
          simp [lastOf, hs, hn]
        rw [this, dictGet_set_ne _ _ (Ne.symm hn)]
        exact h2 n

/-! ## Examples -/

/-- A comment entry in mils. -/
def sampleEntry : ToolEntry := ⟨1, ⟨12, 1, 5⟩, ⟨0, 6, 0⟩, ⟨0, 6, 0⟩, .nonPlated, .mils, 24, true⟩

/-- A table entry. -/
def sampleTableEntry : TableEntry := ⟨2, ⟨39, 1, 4⟩, ⟨0, 1, 0⟩, ⟨0, 1, 0⟩, true, fun _ => 3⟩

example : sampleEntry.line = ("T1 Holesize 1. = 12.5 Tolerance = +0.000000/-0.000000 NON_PLATED MILS " ++
    "Quantity = 24").toList := by decide +kernel

example : sampleTableEntry.line = "39.4    P    T02    0.0    0.0".toList := by decide +kernel

theorem sampleEntry_fits : sampleEntry.Fits := ⟨by decide, by unfold Decimal.Fits; decide,
  by unfold Decimal.Fits; decide, by unfold Decimal.Fits; decide⟩

theorem sampleTableEntry_fits : sampleTableEntry.Fits := ⟨by decide, by unfold Decimal.Fits; decide,
  by unfold Decimal.Fits; decide, by unfold Decimal.Fits; decide⟩

/-- A table: a remark, a comment entry, a table entry with a carriage return, and the first tool again. -/
def sampleItems : List (ToolItem × Str) := [(.other "Drill tools".toList, []), (.comment sampleEntry, []),
  (.table sampleTableEntry, ['\r']), (.comment { sampleEntry with plating := .optional, measure := .mm }, [' '])]

example : ∀ x ∈ sampleItems, x.1.Good ∧ '\n' ∉ x.1.text ∧ ∀ c ∈ x.2, isSpace c = true ∧ c ≠ '\n' := by
  intro x hx
  simp only [sampleItems, List.mem_cons, List.not_mem_nil, or_false] at hx
  rcases hx with rfl | rfl | rfl | rfl
  · refine ⟨⟨by decide +kernel, ?_⟩, by decide +kernel, by decide⟩
    intro c hc
    have : (strip "Drill tools".toList).head? = some 'D' := by decide +kernel
    rw [this] at hc
    cases hc
    decide
  · exact ⟨sampleEntry_fits, by decide +kernel, by decide⟩
  · exact ⟨sampleTableEntry_fits, by decide +kernel, by decide⟩
  · exact ⟨⟨sampleEntry_fits.1, sampleEntry_fits.2, sampleEntry_fits.3, sampleEntry_fits.4⟩, by decide +kernel,
      by decide⟩

example : (lastOf true (sampleItems.map (·.1)) 1).map (·.2) = some (12.5 * (10 / 254), some .optional) := by
  decide +kernel

end Verif.Excellon
