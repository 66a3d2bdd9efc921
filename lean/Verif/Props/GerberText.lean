import Verif.Lemmas.Written
import Verif.Props.GerberConvert

/-! # C83 in terms of the file: what must be true of a text so that the saved file shows the same

`C83_saved_partial` asks for statements that can be written faithfully.  Of statements that were read from a text most of
this holds anyway; what remains are conditions on numbers, on per cent signs, and on commands the library does not know. -/

namespace Verif.Gerber
open Verif.Py Verif.Cam Verif.Am Verif.Rs274x

/-- What must be true of a statement that was read, so that it can be written with settings `st` and read again: the
numbers fit, and there is nothing that only fits where it stood. -/
def Stmt.Fits (st : FileSettings) : Stmt → Prop
  | .fs z n f => z = st.zeroSuppression ∧ n = st.notation_ ∧ f = st.format
  | .ad _ shape mods => ∃ m, mods = [m] ∧ (∀ v ∈ m, FourDigits v) ∧
      (m = [] → shape = ['C'] ∨ (shape.head? ≠ some 'C' ∧ 1 < shape.length))
  | .of_ a b => FiveDecimals a ∧ FiveDecimals b
  | .coord c => ∀ v, c.x = some v ∨ c.y = some v ∨ c.i = some v ∨ c.j = some v → OnGrid st.format v
  | .aperture d dep => dep = false → d ≠ 1 ∧ d ≠ 2 ∧ d ≠ 3
  | .in_ name => '%' ∉ name
  | .ln name => '%' ∉ name
  | .comment text => '%' ∉ text
  | .deprecated line => line = ['G', '9', '0', '*'] ∨ line = ['G', '9', '1', '*']
  | .unknown line =>
      (∃ c body, line = c :: body ++ ['*'] ∧ c ∉ "*%ADFGIJLMOSXY".toList ∧
        Py.isSpace c = false ∧ '%' ∉ c :: body ∧ '*' ∉ body) ∨
      (∃ c body, line = '%' :: (c :: body ++ ['*', '%']) ∧ c ∉ "AFILMOS".toList ∧ '%' ∉ c :: body)
  | _ => True

theorem OneLine.plain {s : Str} (h : OneLine s) (hp : '%' ∉ s) : Plain s :=
  fun c hc => ⟨fun e => hp (e ▸ hc), h c hc⟩

/-- Legible statements that fit are well formed. -/
theorem Stmt.Legible.wf {st : FileSettings} {s : Stmt} (h : s.Legible) (hf : s.Fits st) (ha : isAM s = false) :
    WF st s := by
  cases s with
  | ad d shape mods =>
    obtain ⟨m, rfl, h1, h2⟩ := hf
    by_cases hm : m = []
    · subst hm
      refine .inl ⟨rfl, ?_⟩
      rcases h2 rfl with h2 | ⟨h2, h3⟩
      · exact .inl h2
      · refine .inr ⟨?_, h2⟩
        rcases h with rfl | rfl | rfl | rfl | h
        · simp at h3
        · simp at h3
        · simp at h3
        · simp at h3
        · exact h
    · exact .inr ⟨m, rfl, hm, h1, h⟩
  | am n b x => cases ha
  | in_ name => exact h.plain hf
  | ln name => exact h.plain hf
  | comment t => exact ⟨h.1.plain hf, h.2⟩
  | coord c =>
    exact ⟨h.1, h.2.1, h.2.2, fun v hv => hf v (.inl hv), fun v hv => hf v (.inr (.inl hv)),
      fun v hv => hf v (.inr (.inr (.inl hv))), fun v hv => hf v (.inr (.inr (.inr hv)))⟩
  | aperture d dep => cases dep
                      · exact .inr (hf rfl)
                      · exact .inl rfl
  | unknown line =>
    have h : OneLine line := h
    rcases hf with ⟨c, body, rfl, h1, h2, h3, h4⟩ | ⟨c, body, rfl, h1, h2⟩
    · exact .inl ⟨c, body, rfl, h1, h2, OneLine.plain (h.part (by simp; tauto)) h3, h4⟩
    · exact .inr ⟨c, body, rfl, h1, OneLine.plain (h.part (by simp; tauto)) h2⟩
  | fs z n f => exact hf
  | of_ a b => exact hf
  | deprecated l => exact hf
  | mo _ => exact h
  | lp _ => exact h
  | as_ _ => exact h
  | ip _ => exact h
  | ir _ => trivial
  | mi _ _ => exact h
  | sf _ _ => exact h
  | eof => trivial
  | quad _ => exact h
  | region _ => exact h

variable {G : Type}

theorem evalOp_op (env : EvalEnv G) {st st' : EvalState G} {c : Coord} {x y : ℚ}
    (h : evalOp env st c x y = .ok st') : st'.op = st.op := by
  unfold evalOp at h
  repeat' split at h
  all_goals first
    | cases h; rfl
    | cases h

theorem evaluate_legible (env : EvalEnv G) {st st' : EvalState G} {s s' : Stmt} (hs : s.Legible)
    (ho : CodeOf 'D' (some st.op)) (h : evaluate env st s = .ok (st', s')) :
    s'.Legible ∧ CodeOf 'D' (some st'.op) := by
  cases s with
  | coord c =>
    obtain ⟨⟨st1, c1⟩, h1, h2⟩ := evBind h
    cases h2
    unfold evalCoord at h1
    dsimp only at h1
    have hfun : ∀ o, (setFunction st o).op = st.op := by
      intro o; unfold setFunction; repeat' split
      all_goals rfl
    split at h1
    · cases h1
      exact ⟨hs, by rw [hfun]; exact ho⟩
    · obtain ⟨st2, h3, h4⟩ := evBind h1
      cases h4
      have h5 := evalOp_op env h3
      cases hop : c.op with
      | none =>
        rw [hop] at h5
        simp only [hfun] at h5 ⊢
        refine ⟨⟨hs.1, ho, ?_⟩, by rw [h5]; exact ho⟩
        intro e; rw [Coord.mk.injEq] at e; cases e.2.2.2.2.2
      | some o =>
        have ho' := hs.2.1
        rw [hop] at ho'
        rcases ho' with ho' | ⟨d, hd, ho' | ho'⟩
        · cases ho'
        all_goals
          cases ho'
          rw [hop] at h5
          simp only at h5 ⊢
          exact ⟨hs, by rw [h5]; exact hop ▸ hs.2.1⟩
  | ad d shape mods =>
    obtain ⟨_, h1, h2⟩ := evBind h
    cases h2
    exact ⟨hs, ho⟩
  | region m =>
    cases h
    refine ⟨hs, ?_⟩
    unfold evalRegion
    repeat' split
    all_goals exact ho
  | _ => cases h; exact ⟨hs, ho⟩

theorem evalAll_legible (env : EvalEnv G) {l l' : List Stmt} {st st' : EvalState G} (hl : ∀ s ∈ l, s.Legible)
    (ho : CodeOf 'D' (some st.op)) (h : evalAll env st l = .ok (st', l')) : ∀ s ∈ l', s.Legible := by
  induction l generalizing st l' with
  | nil => cases h; simp
  | cons s l ih =>
    obtain ⟨⟨st1, s1⟩, h1, h2⟩ := evBind h
    obtain ⟨⟨st2, l2⟩, h3, h4⟩ := evBind h2
    cases h4
    obtain ⟨k1, k2⟩ := evaluate_legible env (hl s (by simp)) ho h1
    have := ih (fun s hs => hl s (by simp [hs])) k2 h3
    intro t ht
    rcases List.mem_cons.1 ht with rfl | ht
    · exact k1
    · exact this t ht

/-- Every statement of a file that was read is legible. -/
theorem legible_loads (env : EvalEnv G) (fs : Str → Option Str) {data : Str} {f : GerberFile G}
    (h : loads env fs data = .ok f) : ∀ s ∈ f.statements, s.Legible := by
  obtain ⟨stmts, st, h1, -, h3, -⟩ := loads_ok env h
  exact evalAll_legible env (legible_parseData fs 11 0 defaultSettings data _ h1)
    (.inr ⟨'2', by simp, .inl rfl⟩) h3

/-- A format statement precedes every coordinate. -/
def FormatFirst (l : List Stmt) : Prop :=
  ∀ l₁ c l₂, l = l₁ ++ .coord c :: l₂ → ∃ s ∈ l₁, isFS s = true

theorem wfList_of {st : FileSettings} {l : List Stmt} (ready : Bool) (h : ∀ s ∈ l, WF st s)
    (hf : ∀ l₁ c l₂, l = l₁ ++ .coord c :: l₂ → ready = true ∨ ∃ s ∈ l₁, isFS s = true) : WFList st ready l := by
  induction l generalizing ready with
  | nil => trivial
  | cons s l ih =>
    refine ⟨h s (by simp), ?_, ih _ (fun t ht => h t (by simp [ht])) ?_⟩
    · rintro ⟨c, rfl⟩
      exact (hf [] c l rfl).resolve_right (by simp)
    · rintro l₁ c l₂ rfl
      rcases hf (s :: l₁) c l₂ rfl with hr | ⟨t, ht, hr⟩
      · exact .inl (by simp [hr])
      · rcases List.mem_cons.1 ht with rfl | ht
        · exact .inl (by simp [hr])
        · exact .inr ⟨t, ht, hr⟩

/-- A format statement precedes every coordinate also after other statements are left out. -/
theorem FormatFirst.filter {l : List Stmt} (h : FormatFirst l) :
    FormatFirst (l.filter fun s => !isAM s) := by
  intro l₁ c l₂ he
  obtain ⟨a, b, rfl, h1, h2⟩ := List.filter_eq_append_iff.1 he
  obtain ⟨a', b', rfl, h3, h4, h5⟩ := List.filter_eq_cons_iff.1 h2
  obtain ⟨s, hs, hs'⟩ := h (a ++ a') c b' (by simp)
  refine ⟨s, ?_, hs'⟩
  rcases List.mem_append.1 hs with hs | hs
  · rw [← h1]
    refine List.mem_filter.2 ⟨hs, ?_⟩
    cases s <;> first | rfl | cases hs'
  · exfalso
    have := h3 s hs
    exact this (by cases s <;> first | rfl | cases hs')

/-- **C83 for texts.**  A text is read, the file is written with its own settings, and the written text is read: the
primitives and the settings are the same.  Provided that the numbers of the statements fit (`Stmt.Fits`), a format
statement precedes the coordinates, and macros are kept (`MacrosKept`, see C47). -/
theorem C83_text_partial (center : String → Pt → Pt → Pt → Option Pt) (fs : Str → Option Str) (data : Str)
    {f : GerberFile (List AmPrim)} (h : loads (amReader center) fs data = .ok f) (hst : FormatOK f.settings)
    (hfit : ∀ s ∈ f.statements, s.Fits f.settings) (hfs : FormatFirst f.statements)
    {s : AmState} (hs : amRun 0 {} f.statements = .ok s) (hm : MacrosKept s f.statements) :
    ∃ text f', f.save = .ok text ∧ loads (amReader center) fs text = .ok f' ∧
      f'.primitives = f.primitives ∧ f'.settings = f.settings := by
  refine C83_saved_partial center fs data h hst (wfList_of false ?_ ?_) hs hm
  · intro t ht
    obtain ⟨h1, h2⟩ := List.mem_filter.1 ht
    exact (legible_loads _ fs h t h1).wf (hfit t h1) (by simpa using h2)
  · intro l₁ c l₂ he
    exact .inr (hfs.filter l₁ c l₂ he)

/-- **C83 for texts without macros**: the file read from the written text is the file that was written. -/
theorem C83_text_stable_partial (env : EvalEnv G) (fs : Str → Option Str) (data : Str) {f : GerberFile G}
    (h : loads env fs data = .ok f) (hst : FormatOK f.settings) (hno : ∀ s ∈ f.statements, isAM s = false)
    (hfit : ∀ s ∈ f.statements, s.Fits f.settings) (hfs : FormatFirst f.statements) :
    ∃ text, f.save = .ok text ∧ loads env fs text = .ok f := by
  refine C83_stable_partial env fs data h hst hno (wfList_of false ?_ ?_)
  · exact fun t ht => (legible_loads _ fs h t ht).wf (hfit t ht) (hno t ht)
  · exact fun l₁ c l₂ he => .inr (hfs l₁ c l₂ he)

/-- Before the first parameter between per cent signs a whole line is one command.  A line with `G90*` is then kept in full
as text of the deprecated command, though the rest of the line is read as well; so what follows `G90*` is there twice in
the saved file. -/
theorem C83_deprecated_violated :
    again "FSLAX24Y24*\nADD10C,1*\nD10*G90*X10000Y0D03*\nM02*\n".toList =
      some ([.flash (.circle 1 {}) (1, 0) "dark" "inch"],
        "%FSLAX24Y24*%\n%ADD10C,1*%\nD10*\nG90*X10000Y0D03*\nX10000Y0D03*\nM02*\n".toList,
        [.flash (.circle 1 {}) (1, 0) "dark" "inch", .flash (.circle 1 {}) (1, 0) "dark" "inch"]) := by
  decide +kernel

/-- What follows an unknown command in such a line is skipped when the file is read, but not when the saved file is. -/
theorem C83_unknown_violated :
    again "FSLAX24Y24*\nADD10C,1*\nD10*G99*X10000Y0D03*\nM02*\n".toList =
      some ([], "%FSLAX24Y24*%\n%ADD10C,1*%\nD10*\nG99*X10000Y0D03*\nM02*\n".toList,
        [.flash (.circle 1 {}) (1, 0) "dark" "inch"]) := by
  decide +kernel

/-! ## Examples -/

private theorem dot_fits : (∀ s ∈ dotStmts, s.Fits sampleSettings) ∧ FormatFirst dotStmts := by
  constructor
  · intro s hs
    simp only [dotStmts, List.mem_cons, List.not_mem_nil, or_false] at hs
    rcases hs with rfl | rfl | rfl | rfl | rfl | rfl | rfl
    · exact ⟨rfl, rfl, rfl⟩
    · trivial
    · trivial
    · refine ⟨_, rfl, ?_, by simp⟩
      intro v hv
      simp only [List.mem_singleton] at hv
      exact ⟨2, 0, by decide, by subst hv; norm_num⟩
    · exact fun _ => by decide
    · rintro v (h | h | h | h) <;> cases h
      · exact ⟨10000, by decide, by norm_num [sampleSettings]⟩
      · exact ⟨0, by decide, by norm_num⟩
    · trivial
  · rintro l₁ c l₂ h
    cases l₁ with
    | nil => simp [dotStmts] at h
    | cons s l =>
      simp only [dotStmts, List.cons_append, List.cons.injEq] at h
      exact ⟨_, List.mem_cons_self, by rw [← h.1]; rfl⟩

/-- A file with a macro that is kept. -/
example (center : String → Pt → Pt → Pt → Option Pt) : ∃ f s,
    loads (amReader center) (fun _ => none) dotText = .ok f ∧ FormatOK f.settings ∧
    (∀ s ∈ f.statements, s.Fits f.settings) ∧ FormatFirst f.statements ∧ amRun 0 {} f.statements = .ok s ∧
    MacrosKept s f.statements := by
  obtain ⟨f, h1, h2, h3, -⟩ := dot_loads center
  obtain ⟨s, h4, h5⟩ := dot_macros_by (c := id) (Rs274x.plainly_circle (n := 2) (by norm_num) (by norm_num))
  refine ⟨f, s, h1, ?_, ?_, ?_, by rw [h2]; exact h4, by rw [h2]; exact ⟨h5.1, h5.2, h5.3, h5.4, h5.5⟩⟩
  · rw [h3]; exact ⟨by decide, by decide, by decide, by decide⟩
  · rw [h2, h3]; exact dot_fits.1
  · rw [h2]; exact dot_fits.2

/-- A file without macros. -/
example : ∃ f, loads (amReader fun _ _ _ _ => none) (fun _ => none)
      "%FSLAX24Y24*%\nX10000Y0D02*\n%INa b*%\nG04 c*\nM02*\n".toList = .ok f ∧ FormatOK f.settings ∧
    (∀ s ∈ f.statements, isAM s = false) ∧ (∀ s ∈ f.statements, s.Fits f.settings) ∧ FormatFirst f.statements := by
  have h : (loads (amReader fun _ _ _ _ => none) (fun _ => none)
      "%FSLAX24Y24*%\nX10000Y0D02*\n%INa b*%\nG04 c*\nM02*\n".toList).toOption.map (fun f => (f.statements, f.settings)) =
      some ([.fs "leading" "absolute" (2, 4), .coord { x := some 1, y := some 0, op := some ['D', '0', '2'] },
        .in_ ['a', ' ', 'b'], .comment [' ', 'c'], .eof], sampleSettings) := by
    decide +kernel
  match hf : loads (amReader fun _ _ _ _ => none) (fun _ => none)
      "%FSLAX24Y24*%\nX10000Y0D02*\n%INa b*%\nG04 c*\nM02*\n".toList, h with
  | .ok f, h =>
    simp only [Except.toOption, Option.map_some, Option.some.injEq, Prod.mk.injEq] at h
    refine ⟨f, rfl, by rw [h.2]; exact ⟨by decide, by decide, by decide, by decide⟩, by rw [h.1]; decide, ?_, ?_⟩
    · rw [h.1, h.2]
      intro s hs
      simp only [List.mem_cons, List.not_mem_nil, or_false] at hs
      rcases hs with rfl | rfl | rfl | rfl | rfl
      · exact ⟨rfl, rfl, rfl⟩
      · rintro v (h | h | h | h) <;> cases h
        · exact ⟨10000, by decide, by norm_num [sampleSettings]⟩
        · exact ⟨0, by decide, by norm_num⟩
      · show '%' ∉ _; decide
      · show '%' ∉ _; decide
      · trivial
    · rw [h.1]
      rintro l₁ c l₂ e
      cases l₁ with
      | nil => simp at e
      | cons s l =>
        simp only [List.cons_append, List.cons.injEq] at e
        exact ⟨_, List.mem_cons_self, by rw [← e.1]; rfl⟩

end Verif.Gerber
