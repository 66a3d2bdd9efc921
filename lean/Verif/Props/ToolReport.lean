import Verif.Props.ToolTable
import Verif.Props.Load

/-! # Tool reports define exactly the tools they list (C56) -/

namespace Verif.Excellon
open Verif.Py Verif.Py.Re Verif.Cam Verif.Utils Spec

/-! ## Words -/

theorem pyWords_eq (s : Str) : pyWords s = Ipc.words s := rfl

theorem laid_words {ws : List Str} {s : Str} (h : Laid ws s) : pyWords s = ws := by
  induction h with
  | nil h =>
    have := Load.words_blank_left (t := []) h
    rw [List.append_nil] at this
    rw [pyWords_eq, this]; rfl
  | @last s w t h hw ht =>
    rw [pyWords_eq, List.append_assoc, Load.words_blank_left h, Load.words_word hw.1 hw.2 (by
      intro c hc
      exact ht c (List.mem_of_head? hc))]
    have := Load.words_blank_left (t := []) ht
    rw [List.append_nil] at this
    rw [this]; rfl
  | @cons s w t ws h hw c hc ht ih =>
    rw [pyWords_eq, List.append_assoc, Load.words_blank_left h, Load.words_word hw.1 hw.2 (by
      intro d hd; simp at hd; rw [← hd]; exact hc)]
    have := Load.words_blank_left (s := [c]) (t := t) (by intro d hd; simp at hd; rw [hd]; exact hc)
    rw [show c :: t = [c] ++ t from rfl, this, ← pyWords_eq, ih]

theorem strip_parts (s : Str) : ∃ a b, s = a ++ strip s ++ b ∧ (∀ c ∈ a, isSpace c = true) ∧
    (∀ c ∈ b, isSpace c = true) ∧ ∀ c ∈ (strip s).head?, isSpace c = false := by
  unfold strip stripBy
  obtain ⟨w, hw, hs⟩ := Ipc.rstrip_eq_append (lstripBy isSpace s)
  refine ⟨s.takeWhile isSpace, w, ?_, fun c hc => ?_, hs, fun c hc => ?_⟩
  · rw [List.append_assoc, ← hw]
    exact (List.takeWhile_append_dropWhile).symm
  · exact List.mem_takeWhile_imp hc
  · have : (lstripBy isSpace s).head? = some c := by
      rw [hw]
      cases h : rstripBy isSpace (lstripBy isSpace s) with
      | nil => rw [h] at hc; cases hc
      | cons d t => rw [h] at hc; exact hc
    unfold lstripBy at this
    have h2 := List.head?_dropWhile_not (p := isSpace) s
    rw [this] at h2
    simpa using h2

theorem words_strip (s : Str) : pyWords (strip s) = pyWords s := by
  obtain ⟨a, b, h, ha, hb, _⟩ := strip_parts s
  conv_rhs => rw [h]
  rw [pyWords_eq, pyWords_eq, List.append_assoc, Load.words_blank_left ha, Ipc.words_spaces hb]

theorem head_strip {s w : Str} {ws : List Str} (h : pyWords s = w :: ws) : ∃ c t r, w = c :: t ∧ strip s = c :: r := by
  rw [← words_strip] at h
  obtain ⟨_, _, _, _, _, hn⟩ := strip_parts s
  obtain ⟨s1, r, h1, h2, h3, h4, h5, h6⟩ := Load.words_cons h
  obtain ⟨c, t, rfl⟩ := List.exists_cons_of_ne_nil h3
  cases s1 with
  | nil => exact ⟨c, t, t ++ r, rfl, by rw [h5]; rfl⟩
  | cons d s1 =>
    have := hn d (by rw [h5]; rfl)
    rw [h1 d (by simp)] at this
    cases this

theorem nil_strip {s : Str} (h : pyWords s = []) : strip s = [] := by
  rw [← words_strip] at h
  obtain ⟨_, _, _, _, _, hn⟩ := strip_parts s
  cases hs : strip s with
  | nil => rfl
  | cons c t =>
    exfalso
    rw [hs] at hn h
    have hc := hn c rfl
    have := Load.words_word (w := c :: t.takeWhile (fun d => !isSpace d)) (r := t.dropWhile (fun d => !isSpace d))
      (by simp) (by
        intro d hd
        rcases List.mem_cons.1 hd with rfl | hd
        · exact hc
        · simpa using List.mem_takeWhile_imp hd) (by
        intro d hd
        have := List.head?_dropWhile_not (p := fun d => !isSpace d) t
        rw [hd] at this
        simpa using this)
    rw [List.cons_append, List.takeWhile_append_dropWhile] at this
    rw [pyWords_eq, this] at h
    cases h

/-! ## Lines of a report -/

/-- The tool of a row. -/
def Spec.ReportRow.tool (r : ReportRow) : Tool :=
  { settings := none, number := r.number, diameter := some r.size.value, plated := (markPlating r.mark).map Plating.name,
    feedRate := some r.feed, rpm := some r.speed }

theorem report_row {r : ReportRow} (h : (ReportItem.row r).Good) {s : Str} (hl : Laid r.columns s)
    (tools : List (ℤ × Tool)) : reportLine (true, tools) (strip s) = .ok (true, dictSet tools r.number r.tool) := by
  have hw := laid_words hl
  obtain ⟨c, t, q, h1, h2⟩ := head_strip hw
  have hc : c ≠ '=' := by
    rintro rfl
    have := natStr_all r.number
    rw [h1] at this
    simp only [List.all_cons, Bool.and_eq_true] at this
    exact absurd this.1 (by decide)
  rw [← words_strip, h2] at hw
  have hp : platedMark r.mark = (markPlating r.mark).map Plating.name := by
    unfold platedMark markPlating
    split
    · rfl
    · split <;> rfl
  rw [h2]
  unfold reportLine
  simp only [Bool.not_true, Bool.false_eq_true, if_false, hc]
  rw [hw]
  unfold ReportRow.columns
  simp only [pyInt_natStr, r.size.pyFloat h.1, bind, Except.bind, hp]
  rfl

theorem report_other {it : ReportItem} (h : it.Good) (hr : ∀ r, it ≠ .row r) {s : Str} (hl : Laid it.columns s)
    (tools : List (ℤ × Tool)) : reportLine (true, tools) (strip s) = .ok (true, tools) := by
  have hw := laid_words hl
  cases it with
  | row r => exact (hr r rfl).elim
  | rule x =>
    obtain ⟨c, t, q, h1, h2⟩ := head_strip hw
    cases h1
    rw [h2]
    rfl
  | other ws =>
    cases ws with
    | nil =>
      rw [nil_strip hw]
      rfl
    | cons w ws =>
      obtain ⟨c, t, q, h1, h2⟩ := head_strip hw
      have h6 := h.1
      rw [← words_strip, h2] at hw
      rw [h2]
      unfold reportLine
      simp only [Bool.not_true, Bool.false_eq_true, if_false]
      split
      · rfl
      · rw [hw]
        unfold ReportItem.columns
        split
        · rename_i e
          have e : w :: ws = _ := e
          rw [e] at h6
          exact (h6 rfl).elim
        · rfl

theorem header_matches (g : Fin 5 → ℕ) : ∃ m, reHeader.pyMatch (headerLine g) = some m := by
  have e : headerLine g = "====".toList ++ (gapOf (g 0) ++ ("====".toList ++ (gapOf (g 1) ++ ("====".toList ++
      (gapOf (g 2) ++ ("====".toList ++ (gapOf (g 3) ++ ("=====".toList ++ (gapOf (g 4) ++
        ("===".toList ++ [])))))))))) := by
    unfold headerLine gapOf
    generalize "====".toList = a, "=====".toList = b, "===".toList = c
    simp only [List.append_assoc, List.append_nil]
  rw [e]
  have ns : ∀ {n : ℕ} {s : Str}, ∀ c t, (List.replicate (n + 1) '=') ++ s = c :: t → isSpace c = false := by
    intro n s c t h
    rw [List.replicate_succ] at h
    cases h
    rfl
  have h1 := First.seq (first_gap' (g 4) (ns (n := 2) (s := []))) (First.str "===".toList [])
  have h2 := First.seq (First.str "=====".toList _) h1
  have h3 := First.seq (first_gap' (g 3) (ns (n := 4))) h2
  have h4 := First.seq (First.str "====".toList _) h3
  have h5 := First.seq (first_gap' (g 2) (ns (n := 3))) h4
  have h6 := First.seq (First.str "====".toList _) h5
  have h7 := First.seq (first_gap' (g 1) (ns (n := 3))) h6
  have h8 := First.seq (First.str "====".toList _) h7
  have h9 := First.seq (first_gap' (g 0) (ns (n := 3))) h8
  have h10 := First.seq (First.str "====".toList _) h9
  exact ⟨_, First.pyMatch h10⟩

theorem strip_header (g : Fin 5 → ℕ) : strip (headerLine g) = headerLine g := by
  refine strip_of_ends ?_ ?_
  · intro c hc
    have : (headerLine g).head? = some '=' := rfl
    rw [this] at hc
    cases hc
    rfl
  · intro c hc
    have : (headerLine g).getLast? = some '=' := by
      unfold headerLine
      rw [List.getLast?_append_of_ne_nil _ (by decide)]
      rfl
    rw [this] at hc
    cases hc
    rfl

theorem report_header (g : Fin 5 → ℕ) (tools : List (ℤ × Tool)) :
    reportLine (false, tools) (strip (headerLine g)) = .ok (true, tools) := by
  obtain ⟨m, hm⟩ := header_matches g
  rw [strip_header]
  have : headerLine g = '=' :: (headerLine g).tail := rfl
  rw [this] at hm ⊢
  unfold reportLine
  simp only [Bool.not_false, if_true, hm, Option.isSome_some]

/-- A line in front of the header: it does not begin with four equal signs. -/
def Spec.Preface (s : Str) : Prop := ¬ "====".toList <+: strip s

theorem needs_prefix {t s : Str} {k : Re} (h : ¬ t <+: s) : Fails (.seq (str t) k) s := by
  apply Fails.seq
  intro m hm
  exfalso
  apply h
  have : m.1 = t := by
    clear h
    induction t generalizing s m with
    | nil => simp [Re.str, Re.run] at hm; rw [hm]
    | cons c t ih =>
      have hc : ∀ {x : M} {s : Str}, x ∈ (lit c).run s → x.1 = [c] := by
        intro x s hx
        cases s with
        | nil => cases hx
        | cons d s =>
          simp only [lit, Re.run] at hx
          split at hx
          · rename_i hd
            simp at hx hd
            rw [hx, hd]
          · cases hx
      cases t with
      | nil => exact hc hm
      | cons d t =>
        have hm : m ∈ (Re.seq (lit c) (str (d :: t))).run s := hm
        simp only [Re.run, List.mem_flatMap, List.mem_map] at hm
        obtain ⟨x, hx, y, hy, rfl⟩ := hm
        simp only [hc hx, ih _ hy, List.cons_append, List.nil_append]
  rw [← this]
  exact ⟨_, (run_split _ _ m hm).symm⟩

theorem report_preface {s : Str} (h : Preface s) (tools : List (ℤ × Tool)) :
    reportLine (false, tools) (strip s) = .ok (false, tools) := by
  unfold Preface at h
  generalize strip s = x at *
  cases x with
  | nil => rfl
  | cons c t =>
    have hf : reHeader.pyMatch (c :: t) = none := Fails.pyMatch (needs_prefix h)
    unfold reportLine
    simp only [Bool.not_false, if_true, hf, Option.isSome_none]

/-- The row of a line. -/
def Spec.ReportItem.row? : ReportItem → Option ReportRow
  | .row r => some r
  | _ => none

/-- What a report says about a number: the last row with it. -/
def Spec.lastRow (items : List ReportItem) (n : ℤ) : Option ReportRow :=
  (items.filterMap ReportItem.row?).reverse.find? fun r => (r.number : ℤ) = n

/-- **C56** A tool report: any lines, the header, then rows and other lines.  For each number there is exactly
the tool of the last row with that number, with the size, feed rate, speed and plating of the row; the
report defines no other tools.  Missing: lines with six columns that are not rows
(`C56_other_line_violated`). -/
theorem C56_report_partial {pre : List Str} {g : Fin 5 → ℕ} {items : List (ReportItem × Str)}
    (hp : ∀ s ∈ pre, '\n' ∉ s ∧ Preface s)
    (h : ∀ x ∈ items, x.1.Good ∧ Laid x.1.columns x.2 ∧ '\n' ∉ x.2) :
    ∃ tools, reportTools (unlines (pre ++ headerLine g :: items.map (·.2))) = .ok tools ∧
      ∀ n : ℤ, dictGet tools n = (lastRow (items.map (·.1)) n).map ReportRow.tool := by
  have hn : '\n' ∉ headerLine g := by
    have hg : ∀ n, '\n' ∉ List.replicate n ' ' := fun n hm => absurd (List.eq_of_mem_replicate hm) (by decide)
    unfold headerLine
    simp only [List.mem_append, not_or, hg]
    decide
  unfold reportTools
  rw [pyLines_unlines (by
    intro s hs
    simp only [List.mem_append, List.mem_cons, List.mem_map] at hs
    rcases hs with hs | rfl | ⟨x, hx, rfl⟩
    · exact (hp s hs).1
    · exact hn
    · exact (h x hx).2.2)]
  have h1 : pre.foldlM (fun st l => reportLine st (strip l)) (false, []) = .ok (false, []) := by
    induction pre with
    | nil => rfl
    | cons s pre ih =>
      rw [List.foldlM_cons, report_preface (hp s (by simp)).2]
      exact ih fun x hx => hp x (by simp [hx])
  rw [List.foldlM_append, h1]
  simp only [bind, Except.bind, List.foldlM_cons, report_header]
  clear h1 hp hn
  suffices ∃ tools, (items.map (·.2)).foldlM (fun st l => reportLine st (strip l)) (true, []) = .ok (true, tools) ∧
      ∀ n : ℤ, dictGet tools n = (lastRow (items.map (·.1)) n).map ReportRow.tool by
    obtain ⟨tools, h1, h2⟩ := this
    exact ⟨tools, by rw [h1]; rfl, h2⟩
  induction items using List.reverseRecOn with
  | nil => exact ⟨[], rfl, fun n => by simp [lastRow, dictGet]⟩
  | append_singleton items x ih =>
    obtain ⟨tools, h1, h2⟩ := ih fun y hy => h y (by simp [hy])
    have hx := h x (by simp)
    rw [List.map_append, List.foldlM_append, h1]
    simp only [bind, Except.bind, List.map_cons, List.map_nil, List.foldlM_cons, List.foldlM_nil]
    by_cases hr : ∃ r, x.1 = .row r
    · obtain ⟨r, hr⟩ := hr
      rw [hr] at hx
      rw [report_row hx.1 hx.2.1]
      refine ⟨_, rfl, fun n => ?_⟩
      by_cases e : (r.number : ℤ) = n
      · rw [← e, dictGet_set_self]
        simp [lastRow, hr, ReportItem.row?]
      · rw [dictGet_set_ne _ _ (Ne.symm e), h2]
        simp [lastRow, hr, ReportItem.row?, e]
    · push Not at hr
      rw [report_other hx.1 hr hx.2.1]
      refine ⟨_, rfl, fun n => ?_⟩
      have : x.1.row? = none := by
        cases hk : x.1 with
        | row r => exact (hr r hk).elim
        | rule s => rfl
        | other ws => rfl
      rw [h2]
      simp [lastRow, this]

/-- A remark of six words after the table makes the whole report unreadable. -/
theorem C56_other_line_violated : reportTools ("====  ====  ====  ====  =====  ===\n" ++
    "   1  0.015  x  100  55000  26\n" ++ "All sizes are given in inches\n").toList = .error .valueError := by
  decide +kernel

/-! ## Examples -/

/-- A row. -/
def sampleRow : ReportRow := ⟨1, ⟨0, 3, 15⟩, ['x'], 100, 55000, 26⟩

example : (ReportItem.row sampleRow).Good ∧ Laid sampleRow.columns "   1  0.015  x  100  55000  26\r".toList ∧
    Preface "Report of the drill tools".toList := by
  have w : ∀ s : Str, decide (s ≠ []) && s.all (fun c => !isSpace c) = true → IsWord s := by
    intro s h
    simp only [Bool.and_eq_true, decide_eq_true_eq, List.all_eq_true] at h
    exact ⟨h.1, fun c hc => by simpa using h.2 c hc⟩
  have b : ∀ s : Str, s.all isSpace = true → ∀ c ∈ s, isSpace c = true := fun s h => List.all_eq_true.1 h
  refine ⟨⟨by unfold Decimal.Fits; decide, w _ (by decide)⟩, ?_, by unfold Preface; decide⟩
  have l6 := Laid.last (s := " ".toList) (t := "\r".toList) (b _ (by decide)) (w "26".toList (by decide)) (b _ (by decide))
  have l5 := Laid.cons (s := " ".toList) (b _ (by decide)) (w "55000".toList (by decide)) ' ' (by decide) l6
  have l4 := Laid.cons (s := " ".toList) (b _ (by decide)) (w "100".toList (by decide)) ' ' (by decide) l5
  have l3 := Laid.cons (s := " ".toList) (b _ (by decide)) (w "x".toList (by decide)) ' ' (by decide) l4
  have l2 := Laid.cons (s := " ".toList) (b _ (by decide)) (w "0.015".toList (by decide)) ' ' (by decide) l3
  have l1 := Laid.cons (s := "   ".toList) (b _ (by decide)) (w "1".toList (by decide)) ' ' (by decide) l2
  exact l1

end Verif.Excellon
