import Verif.Props.Parse

/-! # C17: parsing terminates and includes nest at most ten levels -/

namespace Verif.Gerber
open Verif.Py Verif.Cam Verif.Utils
open Verif.Py.Re

/-- The rest of the line after a round, if the loop goes on. -/
def StepRes.rest? : StepRes → Option Str
  | .stop => none
  | .eat r => some r
  | .yield _ _ r => some r
  | .incl _ r => some r

private theorem matchMany_shorter {l : List Re} (h : ∀ a ∈ l, 1 ≤ a.minLen) {s r : Str} {cs : Caps}
    (hm : matchMany l s = some (cs, r)) : r.length < s.length := by
  unfold matchMany at hm
  rw [List.findSome?_eq_some_iff] at hm
  obtain ⟨l1, a, l2, rfl, ha, _⟩ := hm
  exact pyMatch_shorter (h a (by simp)) ha

private theorem bind_ok {α β : Type} {x : PyR α} {f : α → PyR β} {b : β} (h : (x >>= f) = .ok b) :
    ∃ a, x = .ok a ∧ f a = .ok b := by
  cases x with
  | error e => cases h
  | ok a => exact ⟨a, rfl, h⟩

/-- Every round of the inner loop that goes on shortens the line. -/
theorem step_shorter {st : FileSettings} {line r : Str} {x : StepRes} (hne : line ≠ [])
    (h : step st line = .ok x) (hr : x.rest? = some r) : r.length < line.length := by
  have hpos : 0 < line.length := List.length_pos_iff.2 hne
  unfold step at h
  split at h
  · cases h; cases hr
    rw [List.length_tail]; omega
  split at h
  · rename_i hm
    obtain ⟨c, _, h⟩ := bind_ok h
    cases h; cases hr
    exact pyMatch_shorter (by decide) hm
  split at h
  · rename_i hm
    obtain ⟨c, _, h⟩ := bind_ok h
    cases h; cases hr
    exact pyMatch_shorter (by decide) hm
  split at h
  · rename_i hm
    have := matchMany_shorter (by decide) hm
    obtain ⟨c, _, h⟩ := bind_ok h
    cases c <;> cases h <;> cases hr <;> exact this
  split at h
  · rename_i hm; cases h; cases hr
    exact pyMatch_shorter (by decide) hm
  split at h
  · rename_i hm; cases h; cases hr
    exact pyMatch_shorter (by decide) hm
  split at h
  · rename_i hm; cases h; cases hr
    exact pyMatch_shorter (by decide) hm
  split at h
  · rename_i hm; cases h; cases hr
    exact pyMatch_shorter (by decide) hm
  split at h
  · rename_i hm; cases h; cases hr
    exact pyMatch_shorter (by decide) hm
  split at h
  · rename_i hm; cases h; cases hr
    exact pyMatch_shorter (by decide) hm
  split at h
  · cases h; cases hr; exact hpos
  · cases h; cases hr

/-- **C17** (inner loop). The number of rounds spent on a line is at most its length: allowing
more rounds changes nothing. -/
theorem C17_line_rounds (inc : Includer) (n : ℕ) (st : FileSettings) (line : Str)
    (h : line.length ≤ n) : parseLine inc n st line = parseLine inc line.length st line := by
  induction n using Nat.strong_induction_on generalizing st line with
  | _ n ih =>
    rcases Nat.eq_or_lt_of_le h with rfl | hlt
    · rfl
    obtain ⟨n, rfl⟩ : ∃ m, n = m + 1 := ⟨n - 1, by omega⟩
    cases line with
    | nil => rfl
    | cons c t =>
      have key : ∀ st' r, r.length ≤ t.length → parseLine inc n st' r = parseLine inc t.length st' r := by
        intro st' r hr
        simp only [List.length_cons] at hlt
        rw [ih n (by omega) st' r (by omega), ← ih t.length (by omega) st' r hr]
      simp only [List.length_cons, parseLine]
      cases hs : step st (c :: t) with
      | error e => rfl
      | ok x =>
        have hsh := fun r => step_shorter (r := r) (by simp) hs
        cases x with
        | stop => rfl
        | eat r =>
          have := hsh r rfl
          simp only [List.length_cons] at this
          simp only [key st r (by omega)]
        | yield s st' r =>
          have := hsh r rfl
          simp only [List.length_cons] at this
          simp only [key st' r (by omega)]
        | incl f r =>
          have := hsh r rfl
          simp only [List.length_cons] at this
          have hk : ∀ st', parseLine inc n st' r = parseLine inc t.length st' r :=
            fun st' => key st' r (by omega)
          simp only [hk]

/-! ### Nesting -/

/-- **C17** (nesting). At include level `depth ≤ 10` the parser never holds more than
`11 - depth` nested generators: with that many or more the result is the same, whatever the files
include.  In particular a fresh parser needs at most eleven, i.e. ten nested includes. -/
theorem C17_nesting_bounded (fs : Str → Option Str) (depth : ℕ) (hd : depth ≤ 10) (k : ℕ)
    (hk : 11 - depth ≤ k) (st : FileSettings) (data : Str) :
    parseData fs k depth st data = parseData fs (11 - depth) depth st data := by
  induction k generalizing depth st data with
  | zero => omega
  | succ k ih =>
    obtain ⟨m, hm⟩ : ∃ m, 11 - depth = m + 1 := ⟨10 - depth, by omega⟩
    rw [hm]
    simp only [parseData]
    congr 1
    funext f st'
    by_cases h10 : depth < 10
    · simp only [h10, if_true]
      cases fs f with
      | none => rfl
      | some text =>
        show parseData fs k (depth + 1) st' text = parseData fs m (depth + 1) st' text
        rw [ih (depth + 1) (by omega) (by omega) st' text]
        congr 1; omega
    · simp only [h10, if_false]

/-- The interpreter's stack is not exhausted. -/
def NoRec {α : Type} (x : PyR α) : Prop := x ≠ .error .recursionError

private theorem NoRec.bind {α β : Type} {x : PyR α} {f : α → PyR β} (hx : NoRec x)
    (hf : ∀ a, NoRec (f a)) : NoRec (x >>= f) := by
  cases x with
  | error e => intro h; apply hx; injection h with h; rw [h]
  | ok a => exact hf a

private theorem NoRec.ok {α : Type} (a : α) : NoRec (Except.ok a : PyR α) := by simp [NoRec]

private theorem noRec_ite {α : Type} {p : Prop} [Decidable p] {x y : PyR α} (hx : NoRec x)
    (hy : NoRec y) : NoRec (if p then x else y) := by
  split
  · exact hx
  · exact hy

private theorem noRec_pyInt (s : Str) : NoRec (pyInt s) := by
  unfold pyInt; repeat' split
  all_goals simp [NoRec]

private theorem noRec_pyFloat (s : Str) : NoRec (pyFloat s) := by
  unfold pyFloat; repeat' split
  all_goals simp [NoRec]

private theorem noRec_value (s : Str) (f : ℕ × ℕ) (z : String) : NoRec (parseGerberValue s f z) := by
  unfold parseGerberValue
  split
  · exact noRec_pyFloat _
  split
  · simp [NoRec]
  · dsimp only
    generalize hx : pyFloat _ = x
    have h : NoRec x := by rw [← hx]; exact noRec_pyFloat _
    cases x with
    | ok v => simp [NoRec]
    | error e => intro h'; apply h; injection h' with h'; rw [h']

private theorem noRec_optValue (st : FileSettings) (o : Option Str) : NoRec (optValue st o) := by
  cases o with
  | none => simp [NoRec, optValue]
  | some s =>
    have := noRec_value s st.format st.zeroSuppression
    simp only [optValue]
    cases h : parseGerberValue s st.format st.zeroSuppression with
    | ok v => simp [NoRec]
    | error e => rw [h] at this; intro h'; apply this; injection h' with h'; rw [h']

private theorem noRec_natGroup (o : Option Str) : NoRec (natGroup o) := by
  cases o with
  | none => simp [NoRec, natGroup]
  | some s =>
    have := noRec_pyInt s
    simp only [natGroup]
    cases h : pyInt s with
    | ok v => simp [NoRec]
    | error e => rw [h] at this; intro h'; apply this; injection h' with h'; rw [h']

private theorem noRec_mapM {α β : Type} {f : α → PyR β} (hf : ∀ a, NoRec (f a)) (l : List α) :
    NoRec (l.mapM f) := by
  induction l with
  | nil => simp [NoRec, pure, Except.pure]
  | cons a l ih =>
    rw [List.mapM_cons]
    exact (hf a).bind fun b => ih.bind fun c => NoRec.ok _

private theorem noRec_readInt (s : Str) : NoRec (Macro.readInt s) := by
  unfold Macro.readInt
  split <;> simp [NoRec]

private theorem noRec_readFloat (s : Str) : NoRec (Macro.readFloat s) := by
  unfold Macro.readFloat
  dsimp only
  apply noRec_ite (NoRec.ok _)
  have := noRec_pyFloat (s.takeWhile Macro.isNumCh)
  cases h : pyFloat (s.takeWhile Macro.isNumCh) with
  | ok v => simp [NoRec]
  | error e => rw [h] at this; simpa [NoRec] using this

private theorem noRec_readChar (st : Macro.RState) (c : Char) (s : Str) :
    NoRec (Macro.readChar st c s) := by
  unfold Macro.readChar
  repeat' apply noRec_ite
  all_goals first
    | exact NoRec.ok _
    | exact (noRec_readInt _).bind fun a => noRec_ite (NoRec.ok _) (NoRec.ok _)
    | exact (noRec_readInt _).bind fun a => NoRec.ok _
    | exact (noRec_readFloat _).bind fun a => noRec_ite (NoRec.ok _) (NoRec.ok _)
    | skip
  cases Macro.popParen st.ops with
  | mk l ops => cases ops <;> simp [NoRec]

private theorem noRec_readLoop (n : ℕ) (st : Macro.RState) (s : Str) :
    NoRec (Macro.readLoop n st s) := by
  induction n generalizing st s with
  | zero => exact NoRec.ok _
  | succ n ih =>
    cases s with
    | nil => exact NoRec.ok _
    | cons c s => exact (noRec_readChar st c s).bind fun a => ih _ _

private theorem noRec_readMacro (s : Str) : NoRec (Macro.readMacro s) := by
  unfold Macro.readMacro
  induction Macro.splitStar s with
  | nil => exact NoRec.ok _
  | cons b l ih =>
    exact ((noRec_readLoop _ _ _).bind fun a => NoRec.ok _).bind fun a => ih.bind fun b => NoRec.ok _

private theorem noRec_param (st : FileSettings) (line : Str) (m : Caps) :
    NoRec (paramStmt st line m) := by
  unfold paramStmt
  dsimp only
  repeat' apply noRec_ite
  all_goals first
    | exact NoRec.ok _
    | exact (noRec_natGroup _).bind fun a => NoRec.bind (by
        unfold adMods
        split
        · exact noRec_mapM (fun _ => noRec_mapM noRec_pyFloat _) _
        · exact NoRec.ok _) fun b => NoRec.ok _
    | exact (noRec_pyInt _).bind fun a => NoRec.ok _
    | exact (noRec_readMacro _).bind fun a => NoRec.ok _
    | skip
  · refine NoRec.bind ?_ fun a => NoRec.ok _
    unfold fsFromDict
    dsimp only
    split
    · exact NoRec.ok _
    · simp [NoRec]
  · have h : ∀ o, NoRec (ofField o) := by
      intro o; cases o with
      | none => simp [NoRec, ofField]
      | some s => exact noRec_pyFloat s
    exact (h _).bind fun a => (h _).bind fun b => NoRec.ok _
  · have h : ∀ o, NoRec (miField o) := by
      intro o; cases o with
      | none => simp [NoRec, miField]
      | some s => exact noRec_pyInt s
    exact (h _).bind fun a => (h _).bind fun b => NoRec.ok _

private theorem noRec_step (st : FileSettings) (line : Str) : NoRec (step st line) := by
  unfold step
  repeat' split
  all_goals first
    | exact NoRec.ok _
    | exact (noRec_natGroup _).bind fun a => NoRec.ok _
    | exact (noRec_param _ _ _).bind fun a => by cases a <;> exact NoRec.ok _
    | skip
  unfold coordFromDict
  exact NoRec.bind ((noRec_optValue _ _).bind fun _ => (noRec_optValue _ _).bind fun _ =>
    (noRec_optValue _ _).bind fun _ => (noRec_optValue _ _).bind fun _ => NoRec.ok _) fun a =>
      NoRec.ok _

private theorem noRec_parseLine {inc : Includer} (hi : ∀ f st, NoRec (inc f st)) (n : ℕ)
    (st : FileSettings) (line : Str) : NoRec (parseLine inc n st line) := by
  induction n generalizing st line with
  | zero => exact NoRec.ok _
  | succ n ih =>
    unfold parseLine
    split
    · exact NoRec.ok _
    have hs := noRec_step st line
    split
    · rename_i h; rw [h] at hs; intro h'; apply hs; injection h' with h'; rw [h']
    · exact NoRec.ok _
    · exact ih _ _
    · exact (ih _ _).bind fun a => NoRec.ok _
    · exact (hi _ _).bind fun a => (ih _ _).bind fun b => NoRec.ok _

private theorem noRec_parseBlocks {inc : Includer} (hi : ∀ f st, NoRec (inc f st))
    (st : FileSettings) (old : Str) (bs : List Str) : NoRec (parseBlocks inc st old bs) := by
  induction bs generalizing st old with
  | nil => exact NoRec.ok _
  | cons b bs ih =>
    unfold parseBlocks
    dsimp only
    split
    · exact ih _ _
    split
    · exact ih _ _
    · exact (noRec_parseLine hi _ _ _).bind fun a => (ih _ _).bind fun b => NoRec.ok _

/-- **C17** (termination). Whatever the files include, also cyclically, a parser that can hold
eleven nested generators ends with statements or an ordinary exception, never by exhausting the
stack. -/
theorem C17_no_stack_overflow (fs : Str → Option Str) (depth : ℕ) (hd : depth ≤ 10) (k : ℕ)
    (hk : 11 - depth ≤ k) (st : FileSettings) (data : Str) :
    parseData fs k depth st data ≠ .error .recursionError := by
  induction k generalizing depth st data with
  | zero => omega
  | succ k ih =>
    unfold parseData
    apply noRec_parseBlocks
    intro f st'
    split
    · split
      · simp [NoRec]
      · exact ih _ (by omega) (by omega) _ _
    · simp [NoRec]

/-! ### Too deep nesting -/

/-- The text of a file that only includes `name`. -/
def includeText (name : Str) : Str := ['%', 'I', 'F'] ++ name ++ ['*', '%', '\n']

private theorem include_step (st : FileSettings) {name : Str} (h : Plain name) :
    step st ('%' :: 'I' :: 'F' :: (name ++ ['*', '%'])) = .ok (.incl name []) := by
  have hd : name.all isDot = true := by
    rw [List.all_eq_true]
    intro c hc
    simpa [isDot] using (h c hc).2.2
  unfold step
  rw [if_neg (by simp), (coord_fails_head (by decide)).pyMatch,
    (aperture_fails_head (by decide) (by decide)).pyMatch, match_if hd]
  rfl

/-- An include statement is replaced by what the included file contains. -/
theorem C17_include_reads (fs : Str → Option Str) (k depth : ℕ) (st : FileSettings) {name : Str}
    (h : Plain name) : parseData fs (k + 1) depth st (includeText name) =
      if depth < 10 then match fs name with
        | none => .error .ioError
        | some text => parseData fs k (depth + 1) st text
      else .error .ioError := by
  have hl : IsLine ('%' :: 'I' :: 'F' :: (name ++ ['*', '%'])) := by
    have := IsLine.param ('I' :: 'F' :: (name ++ ['*'])) (by
      intro c hc
      simp only [List.mem_cons, List.mem_append, List.not_mem_nil, or_false] at hc
      rcases hc with rfl | rfl | hc | rfl
      · decide
      · decide
      · exact h c hc
      · decide)
    simpa using this
  have hs : (splitCommands (includeText name)) = ['%' :: 'I' :: 'F' :: (name ++ ['*', '%'])] := by
    obtain ⟨hdr', e⟩ := hl.split true []
    have : includeText name = ('%' :: 'I' :: 'F' :: (name ++ ['*', '%'])) ++ '\n' :: [] := by
      simp [includeText]
    unfold splitCommands
    rw [this, e]
    rfl
  simp only [parseData]
  generalize hinc : (fun (f : Str) (st' : FileSettings) => if depth < 10 then match fs f with
        | none => .error .ioError
        | some text => parseData fs k (depth + 1) st' text
      else .error .ioError : Includer) = inc
  have hv : inc name st = if depth < 10 then match fs name with
        | none => .error .ioError
        | some text => parseData fs k (depth + 1) st text
      else .error .ioError := by rw [← hinc]
  rw [hs, ← hv]
  have hline : ∀ r, r = inc name st → parseLine inc ('%' :: 'I' :: 'F' :: (name ++ ['*', '%'])).length st
      ('%' :: 'I' :: 'F' :: (name ++ ['*', '%'])) = match r with
        | .ok x => .ok (x.1, x.2, [])
        | .error e => .error e := by
    rintro r rfl
    simp only [List.length_cons, parseLine, if_neg hl.ne_nil, include_step st h]
    cases inc name st with
    | error e => rfl
    | ok x =>
      simp [bind, Except.bind]
  unfold parseBlocks
  simp only [List.nil_append, hl.strip_eq, if_neg hl.ne_nil, hl.closed, hline _ rfl,
    Bool.false_eq_true, if_false]
  cases inc name st with
  | error e => rfl
  | ok x => simp [parseBlocks, bind, Except.bind]

/-- **C17** (limit). A chain of `n` nested includes ending in a file with content `text` is read
like `text` if `n ≤ 10`, and is an error otherwise. -/
theorem C17_chain (fs : Str → Option Str) (names : ℕ → Str) (hp : ∀ i, Plain (names i)) (n : ℕ)
    (text : Str) (hi : ∀ i, i < n → fs (names i) = some (includeText (names (i + 1))))
    (hn : fs (names n) = some text) (st : FileSettings) :
    parseData fs 11 0 st (includeText (names 0)) =
      if n < 10 then parseData fs (10 - n) (n + 1) st text else .error .ioError := by
  have key : ∀ m, m ≤ n → m ≤ 10 → parseData fs 11 0 st (includeText (names 0)) =
      parseData fs (11 - m) m st (includeText (names m)) := by
    intro m
    induction m with
    | zero => intros; rfl
    | succ m ih =>
      intro h1 h2
      rw [ih (by omega) (by omega), show 11 - m = (11 - (m + 1)) + 1 by omega,
        C17_include_reads fs _ m st (hp m), if_pos (by omega), hi m (by omega)]
  split
  · rename_i h
    rw [key n le_rfl (by omega), show 11 - n = (10 - n) + 1 by omega,
      C17_include_reads fs _ n st (hp n), if_pos h, hn]
  · rename_i h
    rw [key 10 (by omega) le_rfl]
    rw [C17_include_reads fs 0 10 st (hp 10), if_neg (by omega)]

/-- **C17** (cycles). A file that includes itself is reported as an error. -/
theorem C17_self_include (fs : Str → Option Str) (name : Str) (hp : Plain name)
    (h : fs name = some (includeText name)) :
    parseText fs (includeText name) = .error .ioError := by
  have := C17_chain fs (fun _ => name) (fun _ => hp) 10 (includeText name) (fun _ _ => h) h
    defaultSettings
  simpa [parseText] using this

example : Plain ['a'] ∧ ∃ fs : Str → Option Str, fs ['a'] = some (includeText ['a']) :=
  ⟨by intro c hc; simp only [List.mem_singleton] at hc; subst hc; decide,
    fun _ => some (includeText ['a']), rfl⟩

/-- Two files including each other, and a chain of two includes. -/
example : parseText (fun f => if f = ['a'] then some "%IFb*%\nG01*\n".toList
      else some "G02*\n%IFa*%\n".toList) "%IFa*%\n".toList = .error .ioError ∧
    (parseText (fun f => if f = ['a'] then some "%IFb*%\nG01*\n".toList
      else some "G36*\n".toList) "%IFa*%\nM02*".toList).toOption.map (·.1) =
      some [.region "on", .coord { function := some ['G', '0', '1'] }, .eof] := by
  constructor <;> decide +kernel

end Verif.Gerber
