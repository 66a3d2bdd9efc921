import Verif.Model.Load
import Verif.Lemmas.ExcellonText
import Verif.Lemmas.ExcellonWrite
import Mathlib.Data.List.TakeWhile

/-!
# Detecting file types (C44)
-/

namespace Verif.Load

open Verif.Py Verif.Excellon

/-! ## Specification -/

/-- The lines of a text: separated by single newlines, none inside a line. -/
def IsLines (data : Str) (ls : List Str) : Prop :=
  ls ≠ [] ∧ (∀ l ∈ ls, '\n' ∉ l) ∧ List.intercalate ['\n'] ls = data

/-- White space only. -/
def Blank (s : Str) : Prop := ∀ c ∈ s, isSpace c = true

/-- A drill signature: `M48` somewhere in the line. -/
def DrillLine (l : Str) : Prop := ∃ a b, l = a ++ ['M', '4', '8'] ++ b

/-- A Gerber signature: `%FS` somewhere in the line. -/
def GerberLine (l : Str) : Prop := ∃ a b, l = a ++ ['%', 'F', 'S'] ++ b

/-- A netlist signature: the line begins with the words `P JOB`. -/
def NetlistLine (l : Str) : Prop :=
  ∃ s1 s2 r, Blank s1 ∧ Blank s2 ∧ s2 ≠ [] ∧ (∀ c ∈ r.head?, isSpace c = true) ∧
    l = s1 ++ ['P'] ++ s2 ++ ['J', 'O', 'B'] ++ r

/-- The format a line stands for (a line may carry several signatures). -/
inductive Sign (l : Str) : String → Prop
  | drill : DrillLine l → Sign l "excellon"
  | gerber : ¬ DrillLine l → GerberLine l → Sign l "rs274x"
  | netlist : ¬ DrillLine l → ¬ GerberLine l → NetlistLine l → Sign l "ipc_d_356"

/-- A line without signature. -/
def NoSign (l : Str) : Prop := ¬ DrillLine l ∧ ¬ GerberLine l ∧ ¬ NetlistLine l

/-! ## Words of a line -/

theorem words_blank_left {s t : Str} (h : Blank s) : Ipc.words (s ++ t) = Ipc.words t := by
  induction s with
  | nil => rfl
  | cons c s ih =>
    have hc := h c (by simp)
    have := ih fun d hd => h d (by simp [hd])
    unfold Ipc.words at this ⊢
    rw [List.cons_append, List.splitOnP_cons_eq_if_modifyHead, if_pos hc, List.filter_cons]
    simpa using this

theorem splitOnP_none {s : Str} (h : ∀ c ∈ s, isSpace c = false) : s.splitOnP isSpace = [s] := by
  induction s with
  | nil => rfl
  | cons c s ih =>
    rw [List.splitOnP_cons_eq_if_modifyHead, if_neg (by simp [h c]), ih fun d hd => h d (by simp [hd])]
    rfl

theorem words_word {w r : Str} (hw : w ≠ []) (h : ∀ c ∈ w, isSpace c = false)
    (hr : ∀ c ∈ r.head?, isSpace c = true) : Ipc.words (w ++ r) = w :: Ipc.words r := by
  cases r with
  | nil =>
    rw [List.append_nil]; unfold Ipc.words
    rw [splitOnP_none h]; simp [hw]
  | cons c r =>
    have hc : isSpace c = true := hr c rfl
    have e := words_blank_left (s := [c]) (t := r) (by intro d hd; simp at hd; rw [hd]; exact hc)
    rw [show [c] ++ r = c :: r from rfl] at e
    rw [e]; unfold Ipc.words
    rw [List.splitOnP_append_cons _ _ hc, splitOnP_none h]
    simp [hw]

theorem words_cons {s w : Str} {ws : List Str} (h : Ipc.words s = w :: ws) :
    ∃ s1 r, Blank s1 ∧ (∀ c ∈ w, isSpace c = false) ∧ w ≠ [] ∧
      (∀ c ∈ r.head?, isSpace c = true) ∧ s = s1 ++ w ++ r ∧ Ipc.words r = ws := by
  have e1 := List.takeWhile_append_dropWhile (p := isSpace) (l := s)
  set s1 := s.takeWhile isSpace
  set t := s.dropWhile isSpace with ht
  have e2 := List.takeWhile_append_dropWhile (p := fun c => !isSpace c) (l := t)
  set v := t.takeWhile (fun c => !isSpace c) with hv
  set r := t.dropWhile (fun c => !isSpace c) with hr
  have b1 : Blank s1 := fun c hc => List.mem_takeWhile_imp hc
  have hvs : ∀ c ∈ v, isSpace c = false := fun c hc => by
    simpa using List.mem_takeWhile_imp hc
  have hrs : ∀ c ∈ r.head?, isSpace c = true := fun c hc => by
    have := List.head?_dropWhile_not (fun c => !isSpace c) t
    rw [← hr] at this
    cases hh : r.head? with
    | none => rw [hh] at hc; cases hc
    | some d => rw [hh] at this hc; cases hc; simpa using this
  have hw : Ipc.words s = Ipc.words t := by rw [← e1]; exact words_blank_left b1
  by_cases hve : v = []
  · exfalso
    have htn : t = [] := by
      cases ht' : t with
      | nil => rfl
      | cons c t' =>
        have hd := List.head?_dropWhile_not isSpace s
        rw [← ht, ht'] at hd
        simp only [List.head?_cons] at hd
        rw [hv, ht', List.takeWhile_cons] at hve
        simp [hd] at hve
    rw [hw, htn] at h
    simp [Ipc.words] at h
  · have := words_word hve hvs hrs
    rw [e2, ← hw, h] at this
    injection this with a b
    subst a
    exact ⟨s1, r, b1, hvs, hve, hrs, by rw [List.append_assoc, e2, e1], b.symm⟩

theorem netlist_iff (l : Str) :
    NetlistLine l ↔ ∃ ws, Ipc.words l = ['P'] :: ['J', 'O', 'B'] :: ws := by
  constructor
  · rintro ⟨s1, s2, r, h1, h2, h3, hr, rfl⟩
    refine ⟨Ipc.words r, ?_⟩
    have hs2 : ∀ c ∈ (s2 ++ (['J', 'O', 'B'] ++ r)).head?, isSpace c = true := by
      cases s2 with
      | nil => exact absurd rfl h3
      | cons c s2 => intro d hd; cases hd; exact h2 c (by simp)
    rw [show s1 ++ ['P'] ++ s2 ++ ['J', 'O', 'B'] ++ r =
        s1 ++ (['P'] ++ (s2 ++ (['J', 'O', 'B'] ++ r))) by simp,
      words_blank_left h1, words_word (by simp) (by decide) hs2, words_blank_left h2,
      words_word (by simp) (by decide) hr]
  · rintro ⟨ws, h⟩
    obtain ⟨s1, r, h1, -, -, hr, rfl, h'⟩ := words_cons h
    obtain ⟨s2, r2, h2, -, -, hr2, rfl, -⟩ := words_cons h'
    refine ⟨s1, s2, r2, h1, h2, ?_, hr2, by simp⟩
    rintro rfl
    have := hr 'J' rfl
    revert this; decide

/-! ## One line -/

theorem drill_iff (l : Str) : DrillLine l ↔ isInfix "M48".toList l = true := by
  rw [isInfix_iff]
  exact ⟨fun ⟨a, b, h⟩ => ⟨a, b, h.symm⟩, fun ⟨a, b, h⟩ => ⟨a, b, h.symm⟩⟩

theorem gerber_iff (l : Str) : GerberLine l ↔ isInfix "%FS".toList l = true := by
  rw [isInfix_iff]
  exact ⟨fun ⟨a, b, h⟩ => ⟨a, b, h.symm⟩, fun ⟨a, b, h⟩ => ⟨a, b, h.symm⟩⟩

theorem lineFormat_sign {l : Str} {f : String} (h : Sign l f) : lineFormat l = some f := by
  unfold lineFormat
  cases h with
  | drill h => rw [if_pos ((drill_iff l).1 h)]
  | gerber h1 h2 => rw [if_neg (fun h => h1 ((drill_iff l).2 h)), if_pos ((gerber_iff l).1 h2)]
  | netlist h1 h2 h3 =>
    obtain ⟨ws, h⟩ := (netlist_iff l).1 h3
    rw [if_neg (fun h => h1 ((drill_iff l).2 h)), if_neg (fun h => h2 ((gerber_iff l).2 h)), h]
    simp

theorem lineFormat_none {l : Str} (h : NoSign l) : lineFormat l = none := by
  unfold lineFormat
  rw [if_neg (fun e => h.1 ((drill_iff l).2 e)), if_neg (fun e => h.2.1 ((gerber_iff l).2 e))]
  split
  · rename_i a b ws e
    rw [if_neg]
    rintro ⟨rfl, rfl⟩
    exact h.2.2 ((netlist_iff l).2 ⟨ws, e⟩)
  · rfl

theorem sign_or_none (l : Str) : (∃ f, Sign l f) ∨ NoSign l := by
  by_cases h1 : DrillLine l
  · exact .inl ⟨_, .drill h1⟩
  by_cases h2 : GerberLine l
  · exact .inl ⟨_, .gerber h1 h2⟩
  by_cases h3 : NetlistLine l
  · exact .inl ⟨_, .netlist h1 h2 h3⟩
  exact .inr ⟨h1, h2, h3⟩

/-! ## Lines of a text -/

theorem splitOn_lines : ∀ {ls : List Str}, ls ≠ [] → (∀ l ∈ ls, '\n' ∉ l) →
    splitOn '\n' (List.intercalate ['\n'] ls) = ls
  | [], h, _ => absurd rfl h
  | [l], _, h => by
    rw [show List.intercalate ['\n'] [l] = l by simp [List.intercalate]]
    exact splitOn_none (h l (by simp))
  | l :: m :: ls, _, h => by
    rw [show List.intercalate ['\n'] (l :: m :: ls) =
        l ++ '\n' :: List.intercalate ['\n'] (m :: ls) by simp [List.intercalate],
      splitOn_one (h l (by simp)), splitOn_lines (by simp) fun x hx => h x (by simp [hx])]

/-- Every text has lines, and only one way of dividing it. -/
theorem lines_unique (data : Str) : ∃! ls, IsLines data ls := by
  refine ⟨splitOn '\n' data, ?_, fun ls ⟨h1, h2, h3⟩ => by rw [← h3, splitOn_lines h1 h2]⟩
  induction data with
  | nil => exact ⟨by decide, by decide, rfl⟩
  | cons c s ih =>
    obtain ⟨h1, h2, h3⟩ := ih
    unfold splitOn
    cases hs : splitOn '\n' s with
    | nil => exact absurd hs h1
    | cons a l =>
      rw [hs] at h2 h3
      split_ifs with hc
      · subst hc
        refine ⟨by simp, ?_, ?_⟩
        · intro x hx
          rcases List.mem_cons.1 hx with rfl | hx
          · simp
          · exact h2 x hx
        · rw [← h3]; simp [List.intercalate]
      · refine ⟨by simp, ?_, ?_⟩
        · intro x hx
          rcases List.mem_cons.1 hx with rfl | hx
          · have := h2 a (by simp)
            simp only [List.mem_cons, not_or]
            exact ⟨fun e => hc e.symm, this⟩
          · exact h2 x (by simp [hx])
        · rw [← h3]
          cases l <;> simp [List.intercalate]

/-! ## Whole texts -/

theorem findSome_first {pre post : List Str} {l : Str} {f : String} (hpre : ∀ x ∈ pre, NoSign x)
    (h : Sign l f) : (pre ++ l :: post).findSome? lineFormat = some f := by
  induction pre with
  | nil => simp [lineFormat_sign h]
  | cons x pre ih =>
    rw [List.cons_append, List.findSome?_cons, lineFormat_none (hpre x (by simp))]
    exact ih fun y hy => hpre y (by simp [hy])

/-- **C44** A text is classified by its first line with a signature, whatever follows. -/
theorem C44_first_signature (data : Str) (pre post : List Str) (l : Str) (f : String)
    (hl : IsLines data (pre ++ l :: post)) (hpre : ∀ x ∈ pre, NoSign x) (h : Sign l f) :
    detectFileFormat data = f := by
  obtain ⟨h1, h2, rfl⟩ := hl
  unfold detectFileFormat
  rw [splitOn_lines h1 h2, findSome_first hpre h]; rfl

/-- **C44** A text without any signature is unknown, and loading it raises `ParseError`. -/
theorem C44_unknown {G : Type} (env : Gerber.EvalEnv G) (fs : Str → Option Str) (data : Str)
    (ls : List Str) (hl : IsLines data ls) (h : ∀ x ∈ ls, NoSign x) :
    detectFileFormat data = "unknown" ∧ loads env fs data = .error .parseError := by
  obtain ⟨h1, h2, rfl⟩ := hl
  have e : detectFileFormat (List.intercalate ['\n'] ls) = "unknown" := by
    unfold detectFileFormat
    rw [splitOn_lines h1 h2, List.findSome?_eq_none_iff.2 fun x hx => lineFormat_none (h x hx)]
    rfl
  refine ⟨e, ?_⟩
  unfold loads
  rw [e]; rfl

/-- **C44** What follows the line with the first signature does not matter: any two continuations
of a text that has a signature are classified as the text itself. -/
theorem C44_continuation (data rest : Str) (h : detectFileFormat data ≠ "unknown") :
    detectFileFormat (data ++ '\n' :: rest) = detectFileFormat data := by
  obtain ⟨ls, hl, -⟩ := lines_unique data
  obtain ⟨rs, hr, -⟩ := lines_unique rest
  obtain ⟨h1, h2, rfl⟩ := hl
  obtain ⟨r1, r2, rfl⟩ := hr
  have e : List.intercalate ['\n'] ls ++ '\n' :: List.intercalate ['\n'] rs =
      List.intercalate ['\n'] (ls ++ rs) := by
    clear h h2 r2
    induction ls with
    | nil => exact absurd rfl h1
    | cons a ls ih =>
      cases ls with
      | nil => cases rs with
        | nil => exact absurd rfl r1
        | cons b rs => simp [List.intercalate]
      | cons b ls =>
        have := ih (by simp)
        simp only [List.intercalate, List.intersperse_cons_cons, List.cons_append,
          List.flatten_cons, List.append_assoc] at this ⊢
        rw [this]
  have hall : ∀ l ∈ ls ++ rs, '\n' ∉ l := by
    intro l hl
    rcases List.mem_append.1 hl with hl | hl
    · exact h2 l hl
    · exact r2 l hl
  unfold detectFileFormat at h ⊢
  rw [e, splitOn_lines (by simp [h1]) hall, List.findSome?_append]
  rw [splitOn_lines h1 h2] at h ⊢
  cases hf : ls.findSome? lineFormat with
  | none => rw [hf] at h; exact absurd rfl h
  | some f => rfl

/-- **C44** Every text is either unknown or has a first line with a signature. -/
theorem C44_total (data : Str) :
    (∃ ls, IsLines data ls ∧ ∀ x ∈ ls, NoSign x) ∨
    ∃ pre l post f, IsLines data (pre ++ l :: post) ∧ (∀ x ∈ pre, NoSign x) ∧ Sign l f := by
  obtain ⟨ls, hl, -⟩ := lines_unique data
  have : (∀ x ∈ ls, NoSign x) ∨
      ∃ pre l post f, ls = pre ++ l :: post ∧ (∀ x ∈ pre, NoSign x) ∧ Sign l f := by
    clear hl
    induction ls with
    | nil => exact .inl (by simp)
    | cons a ls ih =>
      rcases sign_or_none a with ⟨f, hf⟩ | ha
      · exact .inr ⟨[], a, ls, f, rfl, by simp, hf⟩
      · rcases ih with h | ⟨pre, l, post, f, rfl, hp, hf⟩
        · exact .inl fun x hx => by
            rcases List.mem_cons.1 hx with rfl | hx
            · exact ha
            · exact h x hx
        · refine .inr ⟨a :: pre, l, post, f, rfl, ?_, hf⟩
          intro x hx
          rcases List.mem_cons.1 hx with rfl | hx
          · exact ha
          · exact hp x hx
  rcases this with h | ⟨pre, l, post, f, rfl, hp, hf⟩
  · exact .inl ⟨ls, hl, h⟩
  · exact .inr ⟨pre, l, post, f, hl, hp, hf⟩

/-- **C44** Loading hands the text to the reader of the detected format. -/
theorem C44_loads {G : Type} (env : Gerber.EvalEnv G) (fs : Str → Option Str) (data : Str) :
    (detectFileFormat data = "rs274x" →
      loads env fs data = (Gerber.loads env fs data).map .gerber) ∧
    (detectFileFormat data = "excellon" →
      loads env fs data = (Excellon.loads data none []).map .excellon) ∧
    (detectFileFormat data = "ipc_d_356" →
      loads env fs data = (Ipc.parseRaw data).map .netlist) := by
  refine ⟨fun h => ?_, fun h => ?_, fun h => ?_⟩ <;> unfold loads <;> rw [h] <;> rfl

/-- A Gerber file whose second line decides, though a later line mentions `M48`; and a netlist. -/
example : detectFileFormat "G04 M4 8*\n%FSLAX24Y24*%\nG04 M48*".toList = "rs274x" ∧
    detectFileFormat "C  comment\n P\t JOB demo\n%FS".toList = "ipc_d_356" ∧
    detectFileFormat "; ;\nM48 %FS".toList = "excellon" ∧
    detectFileFormat "PJOB\n%F S\nM 48".toList = "unknown" := by decide +kernel

example : Sign " P\t JOB demo".toList "ipc_d_356" := by
  refine .netlist (by rw [drill_iff]; decide) (by rw [gerber_iff]; decide) ?_
  exact ⟨[' '], ['\t', ' '], " demo".toList, by unfold Blank; decide, by unfold Blank; decide,
    by decide, by decide, by decide⟩

end Verif.Load
