import Verif.Props.GerberConvert
import Verif.Props.File

/-! # C86: a Gerber file that is moved, written and read again shows the same, moved -/

namespace Verif.Gerber
open Verif.Py Verif.Cam Verif.Am Verif.Rs274x

/-! ## Moving changes neither macros, nor apertures, nor settings -/

theorem changes_offset (center : String → Pt → Pt → Pt → Option Pt) (dx dy : ℚ) :
    Changes (Stmt.offset dx dy) id (amReader center) where
  am _ _ _ := rfl
  ad d s mods := ⟨mods, rfl, fun ms h => ⟨ms, h, fun b u ps hb => by simp [amReader, hb, Except.map]⟩⟩
  other a h1 h2 := by
    cases a with
    | am n b x => exact absurd rfl (h1 n b x)
    | ad d s m => exact absurd rfl (h2 d s m)
    | _ => exact ⟨fun _ _ _ h => (by cases h), fun _ _ _ h => (by cases h)⟩

theorem am_offset (dx dy : ℚ) (a : Stmt) (n : Str) (b : Str) (x : List Str)
    (h : a.offset dx dy = .am n b x) : a = .am n b x := by
  cases a <;> first | exact h | cases h

theorem settings_offset (fin : ℕ → List AmPrim) (dx dy : ℚ) (l : List Stmt) :
    ∀ (j : ℕ) (st : FileSettings),
      (rewritten fin j (l.map (Stmt.offset dx dy))).foldl applySetting st = l.foldl applySetting st := by
  induction l with
  | nil => intro j st; rfl
  | cons a l ih =>
    intro j st
    cases a with
    | am n b x =>
      have e : (rewritten fin j ((Stmt.am n b x :: l).map (Stmt.offset dx dy))).foldl applySetting st =
          (rewritten fin (j + 1) (l.map (Stmt.offset dx dy))).foldl applySetting st := by
        simp only [List.map_cons, Stmt.offset, rewritten, List.foldl_cons]
        split_ifs <;> rfl
      rw [e]
      exact ih (j + 1) _
    | _ => exact ih (j + 1) _

/-! ## C86 -/

/-- **C86.**  A text is read, the file is moved and written, and the written text is read: the primitives are the same,
moved, and so are the settings.  Provided that nothing is drawn from the position before the first coordinates, that arcs
have no centre offsets (`AllOffsetOK`, see C20), and that the moved statements and the macros can be written faithfully
(`WFList`, see C13, and `MacrosKeptBy`, see C47 and C84). -/
theorem C86_moved_partial (center : String → Pt → Pt → Pt → Option Pt) (dx dy : ℚ) (fs : Str → Option Str) (data : Str)
    {f : GerberFile (List AmPrim)} (h : loads (amReader center) fs data = .ok f) (hst : FormatOK f.settings)
    (ho : AllOffsetOK f.statements.reverse)
    (hwf : WFList f.settings false ((f.statements.map (Stmt.offset dx dy)).filter fun s => !isAM s))
    {s : AmState} (hs : amRun 0 {} f.statements = .ok s) (hm : MacrosKeptBy id s f.statements) :
    ∃ text f', f.saveMoved dx dy = .ok text ∧ loads (amReader center) fs text = .ok f' ∧
      f'.primitives = f.primitives.map (Prim.translate (dx, dy)) ∧ f'.settings = f.settings := by
  obtain ⟨stmts, st, h1, hsound, h3, h4⟩ := loads_ok _ h
  have hset := loads_settings _ h1 h3
  have h5 := C18_again _ stmts h3
  have hmode := evalAll_modeOK _ h3 fun s hs => (hsound s hs).modeOK
  obtain ⟨st', l', e1, e2⟩ := C20_offset_partial dx dy (amReader center) ⟨f.statements, f.settings.units⟩ hmode ho h5
  obtain ⟨text, f', t1, t2, t3, t4⟩ := saved_changed (changes_offset center dx dy) rfl (am_offset dx dy) fs
    (st := f.settings) hst hwf hs hm e1
  refine ⟨text, f', ?_, t2, by rw [t3, e2, h4], ?_⟩
  · simp only [GerberFile.saveMoved, hs, bind, Except.bind, GerberFile.saveAs, GerberFile.macroFile, Program.offset]
    simpa using t1
  · rw [t4, settings_offset]
    have h8 := evalAll_settings _ _ h5
    rw [hset] at h8
    exact h8.symm

/-! ## Files that are not covered -/

/-- The primitives of the file that is read, the text that is written after moving, and the primitives read from it. -/
def againMoved (dx dy : ℚ) (data : Str) : Option (List (Prim (List AmPrim)) × Str × List (Prim (List AmPrim))) := do
  let env := amReader fun _ _ _ _ => none
  let f ← (loads env (fun _ => none) data).toOption
  let text ← (f.saveMoved dx dy).toOption
  let f' ← (loads env (fun _ => none) text).toOption
  some (f.primitives, text, f'.primitives)

/-- The centre of an arc moves by twice the offset, from (2, 0) to (4, 4) instead of (3, 2). -/
theorem C86_arc_violated :
    againMoved 1 2
      "%FSLAX24Y24*%\n%MOIN*%\n%ADD10C,0.1*%\nD10*\nG75*\nX10000Y0D02*\nG03X30000Y0I10000J0D01*\nM02*\n".toList =
      some ([.edge (.arc (1, 0) (3, 0) (some (2, 0)) "counterclockwise" ⟨.circle (1 / 10) {}, some "inch"⟩ "multi-quadrant"
          "dark" "inch")],
        ("%FSLAX24Y24*%\n%MOIN*%\n%ADD10C,0.1*%\nD10*\nG75*\nX20000Y20000D02*\n" ++
          "G03X40000Y20000I20000J20000D01*\nM02*\n").toList,
        [.edge (.arc (2, 2) (4, 2) (some (4, 4)) "counterclockwise" ⟨.circle (1 / 10) {}, some "inch"⟩ "multi-quadrant"
          "dark" "inch")]) := by
  decide +kernel

/-- A line from the origin, drawn before any coordinates are given, still starts at the origin. -/
theorem C86_origin_violated :
    againMoved 1 2 "%FSLAX24Y24*%\n%MOIN*%\n%ADD10C,0.1*%\nD10*\nX10000Y0D01*\nM02*\n".toList =
      some ([.edge (.line (0, 0) (1, 0) ⟨.circle (1 / 10) {}, some "inch"⟩ "dark" "inch")],
        "%FSLAX24Y24*%\n%MOIN*%\n%ADD10C,0.1*%\nD10*\nX20000Y20000D01*\nM02*\n".toList,
        [.edge (.line (0, 0) (2, 2) ⟨.circle (1 / 10) {}, some "inch"⟩ "dark" "inch")]) := by
  decide +kernel

/-- Offsets that are finer than the format are lost, and 127 inch are read as 12.7 inch. -/
theorem C86_format_violated :
    againMoved (1 / 100000) 127 "%FSLAX24Y24*%\n%MOIN*%\n%ADD10C,0.1*%\nD10*\nX10000Y0D03*\nM02*\n".toList =
      some ([.flash (.circle (1 / 10) {}) (1, 0) "dark" "inch"],
        "%FSLAX24Y24*%\n%MOIN*%\n%ADD10C,0.1*%\nD10*\nX10000Y1270000D03*\nM02*\n".toList,
        [.flash (.circle (1 / 10) {}) (1, 127 / 10) "dark" "inch"]) := by
  decide +kernel

/-! ## Example -/

private theorem dot_moved : WFList sampleSettings false
    ((dotStmts.map (Stmt.offset (1 / 2) (-3))).filter fun s => !isAM s) := by
  have e : (dotStmts.map (Stmt.offset (1 / 2) (-3))).filter (fun s => !isAM s) =
      [.fs "leading" "absolute" (2, 4), .mo "inch", .ad 10 "DOT".toList [[2]], .aperture 10 false,
        .coord { x := some (3 / 2), y := some (-3), op := some ['D', '0', '3'] }, .eof] := by decide +kernel
  rw [e]
  refine ⟨⟨rfl, rfl, rfl⟩, by simp, Or.inr rfl, by simp, ?_, by simp,
    Or.inr (by decide), by simp, ?_, by simp [isFS], trivial, by simp, trivial⟩
  · right
    refine ⟨_, rfl, by simp, ?_, by simp [dot_name]⟩
    intro v hv
    simp only [List.mem_singleton] at hv
    exact ⟨2, 0, by decide, by subst hv; norm_num⟩
  · refine ⟨Or.inl rfl, Or.inr ⟨'3', by decide, Or.inl rfl⟩, by decide, ?_, ?_, by simp, by simp⟩
    · intro v hv; cases hv; exact ⟨15000, by decide, by norm_num [sampleSettings]⟩
    · intro v hv; cases hv; exact ⟨-30000, by decide, by norm_num [sampleSettings]⟩

private theorem dot_offset : AllOffsetOK dotStmts.reverse := by
  have h : actionAt (dotStmts.take 5).reverse { x := some 1, y := some 0, op := some ['D', '0', '3'] } = some .flash := by
    decide +kernel
  simp only [dotStmts, List.take, List.reverse_cons, List.reverse_nil, List.nil_append, List.cons_append] at h
  simp only [dotStmts, List.reverse_cons, List.reverse_nil, List.nil_append, List.cons_append, AllOffsetOK, OffsetOK, h,
    xGiven, yGiven, xsOf, ysOf]
  decide +kernel

/-- A file with a macro that is moved. -/
example (center : String → Pt → Pt → Pt → Option Pt) :
    ∃ f s, loads (amReader center) (fun _ => none) dotText = .ok f ∧ FormatOK f.settings ∧
      AllOffsetOK f.statements.reverse ∧
      WFList f.settings false ((f.statements.map (Stmt.offset (1 / 2) (-3))).filter fun s => !isAM s) ∧
      amRun 0 {} f.statements = .ok s ∧ MacrosKeptBy id s f.statements ∧
      f.primitives.map (Prim.translate (1 / 2, -3)) =
        [.flash (.group [.circle true 2 (0, 0)]) (3 / 2, -3) "dark" "inch"] := by
  obtain ⟨f, h1, h2, h3, h4⟩ := dot_loads center
  obtain ⟨s, h5, h6⟩ := dot_macros_by (c := id) (.inl ⟨⟨2, 0, by norm_num, by norm_num, .inr (by
    show _ ≤ |(2 : ℚ)|; rw [abs_of_pos] <;> norm_num)⟩, ⟨0, 0, by norm_num, by norm_num, .inl rfl⟩,
    ⟨0, 0, by norm_num, by norm_num, .inl rfl⟩⟩)
  refine ⟨f, s, h1, by rw [h3]; exact ⟨by decide, by decide, by decide, by decide⟩, by rw [h2]; exact dot_offset,
    by rw [h2, h3]; exact dot_moved, by rw [h2]; exact h5, by rw [h2]; exact h6, ?_⟩
  rw [h4]
  decide +kernel

end Verif.Gerber
