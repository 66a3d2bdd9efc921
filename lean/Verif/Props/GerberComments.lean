import Verif.Model.GerberComments
import Verif.Props.GerberText

/-! # C102: the comments of a file -/

namespace Verif.Gerber
open Verif.Py Verif.Cam Verif.Am Verif.Rs274x

/-- A comment statement. -/
def isComment : Stmt → Bool
  | .comment _ => true
  | _ => false

/-- **C102.**  The comments of a file are the texts of its comment statements, in their order. -/
theorem C102_list (f : GerberFile G) :
    f.comments.map Stmt.comment = f.statements.filter isComment := by
  unfold GerberFile.comments commentsOf
  induction f.statements with
  | nil => rfl
  | cons s l ih => cases s <;> simp [List.filterMap_cons, List.filter_cons, Stmt.commentText?, isComment, ih]

/-! ## Reading -/

theorem evaluate_comment (env : EvalEnv G) {st st' : EvalState G} {s s' : Stmt}
    (h : evaluate env st s = .ok (st', s')) :
    s'.commentText? = s.commentText? ∧ ((∃ t, s = .comment t) → st' = st ∧ s' = s) := by
  cases s with
  | coord c =>
    obtain ⟨⟨a, b⟩, -, h2⟩ := evBind h
    cases h2
    exact ⟨rfl, by rintro ⟨t, ht⟩; cases ht⟩
  | ad d shape mods =>
    obtain ⟨a, -, h2⟩ := evBind h
    cases h2
    exact ⟨rfl, by rintro ⟨t, ht⟩; cases ht⟩
  | comment t => cases h; exact ⟨rfl, fun _ => ⟨rfl, rfl⟩⟩
  | _ => cases h; exact ⟨rfl, by rintro ⟨t, ht⟩; cases ht⟩

theorem evalAll_comments (env : EvalEnv G) {l l' : List Stmt} {st st' : EvalState G}
    (h : evalAll env st l = .ok (st', l')) : commentsOf l' = commentsOf l := by
  induction l generalizing st st' l' with
  | nil => cases h; rfl
  | cons s l ih =>
    obtain ⟨⟨a, s'⟩, h1, h2⟩ := evBind h
    obtain ⟨⟨b, l''⟩, h3, h4⟩ := evBind h2
    cases h4
    simp only [commentsOf, List.filterMap_cons, (evaluate_comment env h1).1]
    have := ih h3
    simp only [commentsOf] at this
    rw [this]

/-- **C102.**  The comments of a file that was read are those of its text: evaluating the statements adds, drops and
changes none.  None contains the `*` that ends it, nor a line break. -/
theorem C102_read (env : EvalEnv G) (fs : Str → Option Str) {data : Str} {f : GerberFile G}
    (h : loads env fs data = .ok f) :
    (∃ stmts st, parseText fs data = .ok (stmts, st) ∧ f.comments = commentsOf stmts) ∧
      ∀ t ∈ f.comments, '*' ∉ t ∧ '\n' ∉ t ∧ '\r' ∉ t := by
  obtain ⟨stmts, st, h1, -, h3, -⟩ := loads_ok env h
  refine ⟨⟨stmts, _, h1, evalAll_comments env h3⟩, ?_⟩
  intro t ht
  obtain ⟨s, hs, e⟩ := List.mem_filterMap.1 ht
  cases s with
  | comment t' =>
    cases e
    obtain ⟨h4, h5⟩ := legible_loads env fs h _ hs
    exact ⟨h5, fun hn => (h4 _ hn).2 rfl, fun hr => (h4 _ hr).1 rfl⟩
  | _ => cases e

/-! ## Comments draw nothing -/

/-- The statements but for the comments. -/
def sansComments (l : List Stmt) : List Stmt := l.filter fun s => !isComment s

/-- **C102.**  Without its comments a program leaves the same state behind, hence the same primitives. -/
theorem C102_ignored (env : EvalEnv G) {l l' : List Stmt} {st st' : EvalState G}
    (h : evalAll env st l = .ok (st', l')) : evalAll env st (sansComments l) = .ok (st', sansComments l') := by
  induction l generalizing st st' l' with
  | nil => cases h; rfl
  | cons s l ih =>
    obtain ⟨⟨a, s'⟩, h1, h2⟩ := evBind h
    obtain ⟨⟨b, l''⟩, h3, h4⟩ := evBind h2
    cases h4
    have e := evaluate_comment env h1
    have i := ih h3
    have hr : ∀ s : Stmt, isComment s = s.commentText?.isSome := fun s => by cases s <;> rfl
    have hs : isComment s' = isComment s := by rw [hr, hr, e.1]
    cases hc : isComment s with
    | false =>
      rw [hc] at hs
      simp only [sansComments, List.filter_cons, hc, hs, Bool.not_false, if_true] at i ⊢
      simp only [evalAll, h1, bind, Except.bind, i]
    | true =>
      rw [hc] at hs
      have ha : a = st := (e.2 (by
        cases s with
        | comment t => exact ⟨t, rfl⟩
        | _ => cases hc)).1
      subst ha
      simp only [sansComments, List.filter_cons, hc, hs, Bool.not_true, Bool.false_eq_true, if_false] at i ⊢
      exact i

/-! ## Moving and converting -/

theorem commentsOf_map {f : Stmt → Stmt} (h : ∀ s, (f s).commentText? = s.commentText?) (l : List Stmt) :
    commentsOf (l.map f) = commentsOf l := by
  simp only [commentsOf, List.filterMap_map]
  congr 1
  funext s
  exact h s

/-- **C102.**  Moving a file and converting it either way leave its comments as they are. -/
theorem C102_edited (p : Program) (dx dy : ℚ) :
    commentsOf (p.offset dx dy).statements = commentsOf p.statements ∧
      commentsOf p.toMetric.statements = commentsOf p.statements ∧
      commentsOf p.toInch.statements = commentsOf p.statements := by
  refine ⟨commentsOf_map (fun s => by cases s <;> rfl) _, ?_, ?_⟩
  · unfold Program.toMetric
    split
    · simp only
      split
      · exact commentsOf_map (fun s => by cases s <;> rfl) _
      · rfl
    · rfl
  · unfold Program.toInch
    split
    · simp only
      split
      · exact commentsOf_map (fun s => by cases s <;> rfl) _
      · rfl
    · rfl

/-! ## Writing -/

/-- **C102 for files that can be written faithfully** (see `C83_text_stable_partial`): the file read from the written text
has the same comments. -/
theorem C102_saved_partial (env : EvalEnv G) (fs : Str → Option Str) (data : Str) {f : GerberFile G}
    (h : loads env fs data = .ok f) (hst : FormatOK f.settings) (hno : ∀ s ∈ f.statements, isAM s = false)
    (hfit : ∀ s ∈ f.statements, s.Fits f.settings) (hfs : FormatFirst f.statements) :
    ∃ text f', f.save = .ok text ∧ loads env fs text = .ok f' ∧ f'.comments = f.comments := by
  obtain ⟨text, h1, h2⟩ := C83_text_stable_partial env fs data h hst hno hfit hfs
  exact ⟨text, f, h1, h2, rfl⟩

/-! ## What is not so -/

/-- Comments and primitives of a text. -/
def remarks (data : Str) : Option (List Str × List (Prim (List AmPrim))) :=
  (loads (amReader fun _ _ _ _ => none) (fun _ => none) data).toOption.map fun f => (f.comments, f.primitives)

/-- A comment before the first parameter ends with a per cent sign in it; what follows the sign is obeyed. -/
theorem C102_percent_violated :
    remarks "FSLAX24Y24*\nADD10C,1*\nD10*\nG04 50%X10000Y0D03*\nM02*\n".toList =
      some ([" 50%".toList], [.flash (.circle 1 {}) (1, 0) "dark" "inch"]) := by
  decide +kernel

/-- The second line of a comment is obeyed as a command. -/
theorem C102_lines_violated :
    remarks "%FSLAX24Y24*%\n%ADD10C,1*%\nD10*\nG04 was:\nX10000Y0D03*\nM02*\n".toList =
      some ([" was:".toList], [.flash (.circle 1 {}) (1, 0) "dark" "inch"]) := by
  decide +kernel

/-! ## Examples -/

example : remarks "%FSLAX24Y24*%\nG04 a*G4b*\n%ADD10C,1*%\nD10*\nX10000Y0D03*\nG04 *\nM02*\n".toList =
    some ([" a".toList, "b".toList, " ".toList], [.flash (.circle 1 {}) (1, 0) "dark" "inch"]) := by
  decide +kernel

example : commentsOf (Program.toMetric ⟨[.comment ['a'], .mo "inch", .comment ['b']], "inch"⟩).statements =
    [['a'], ['b']] := by
  decide +kernel

end Verif.Gerber
