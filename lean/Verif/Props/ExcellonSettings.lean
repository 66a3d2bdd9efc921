import Verif.Spec.ExcellonSettings
import Verif.Props.ExcellonWrite
import Verif.Props.ExcellonDetect

/-! # C53: setting lines of a drill file set exactly what they name -/

namespace Verif.Excellon
open Verif.Py Verif.Cam Verif.Utils

/-- The settings by which a parser in this state reads coordinates. -/
def PState.reading (s : PState) : Reading := ⟨s.notation_, s.units, s.zeros, s.format⟩

/-- Everything but the settings and the list of statements. -/
structure SameElse (s s' : PState) : Prop where
  state : s'.state = s.state
  heap : s'.heap = s.heap
  tools : s'.tools = s.tools
  ext : s'.ext = s.ext
  comments : s'.comments = s.comments
  hits : s'.hits = s.hits
  active : s'.active = s.active
  pos : s'.pos = s.pos
  down : s'.down = s.down
  prev : s'.prev = s.prev
  plated : s'.plated = s.plated

theorem SameElse.refl (s : PState) : SameElse s s := ⟨rfl, rfl, rfl, rfl, rfl, rfl, rfl, rfl, rfl, rfl, rfl⟩

theorem SameElse.trans {a b c : PState} (h : SameElse a b) (k : SameElse b c) : SameElse a c :=
  ⟨k.1.trans h.1, k.2.trans h.2, k.3.trans h.3, k.4.trans h.4, k.5.trans h.5, k.6.trans h.6,
    k.7.trans h.7, k.8.trans h.8, k.9.trans h.9, k.10.trans h.10, k.11.trans h.11⟩

theorem not_infix_of_mem {c : Char} {t s : Str} (hc : c ∈ t) (hs : c ∉ s) : isInfix t s = false := by
  rw [← Bool.not_eq_true, isInfix_iff]
  rintro ⟨a, b, e⟩
  exact hs (e ▸ by simp [hc])

theorem natStr_no {c : Char} (n : ℕ) (hc : isDig c = false) : c ∉ natStr n := by
  intro h
  have := List.all_eq_true.1 (natStr_all n) c h
  rw [hc] at this
  cases this

theorem unit_formats (f : Option (Fin 3)) : f = none ∨ f = some 0 ∨ f = some 1 ∨ f = some 2 := by
  rcases f with _ | f
  · exact .inl rfl
  · revert f; decide

theorem fileFormat_solid (a b : ℕ) :
    (SettingLine.fileFormat a b).text.all (fun c => !isSpace c) = true := by
  have hd : ∀ n : ℕ, (natStr n).all (fun c => !isSpace c) = true := fun n =>
    all_mono (natStr_all n) fun c hc => by rw [not_isSpace_of_isDig hc]; rfl
  unfold SettingLine.text
  rw [List.all_append, List.all_append, List.all_cons, hd, hd]
  decide

/-- The text of a format comment. -/
theorem fileFormat_line (s : PState) (hp : s.prev = []) (a b : ℕ) :
    s.parseLine (SettingLine.fileFormat a b).text = .ok { s.add (.comment ("FILE_FORMAT=".toList ++ natStr a ++ ':' ::
      natStr b)) with format := [a, b] } := by
  have nd : ∀ (c : Char), isDig c = false → c ∉ "FILE_FORMAT=:".toList →
      c ∉ "FILE_FORMAT=".toList ++ natStr a ++ ':' :: natStr b := by
    intro c h1 h2 h
    simp only [List.mem_append, List.mem_cons] at h
    rcases h with (h | h) | h | h
    · exact h2 ((by decide : ∀ c ∈ "FILE_FORMAT=".toList, c ∈ "FILE_FORMAT=:".toList) c h)
    · exact natStr_no a h1 h
    · exact h2 (h ▸ by decide)
    · exact natStr_no b h1 h
  have hsp := fileFormat_solid a b
  have hl : lstripBy (· == ';') (SettingLine.fileFormat a b).text =
      "FILE_FORMAT=".toList ++ natStr a ++ ':' :: natStr b := rfl
  have hf : commentFormat ("FILE_FORMAT=".toList ++ natStr a ++ ':' :: natStr b) = .ok [a, b] := by
    have e : "FILE_FORMAT=".toList ++ natStr a ++ ':' :: natStr b =
        "FILE_FORMAT".toList ++ '=' :: (natStr a ++ ':' :: natStr b) := by
      rw [show "FILE_FORMAT=".toList = "FILE_FORMAT".toList ++ ['='] from rfl]
      simp only [List.append_assoc, List.cons_append, List.nil_append]
    have h1 : '=' ∉ natStr a ++ ':' :: natStr b := by
      simp only [List.mem_append, List.mem_cons, not_or]
      exact ⟨natStr_no a (by decide), by decide, natStr_no b (by decide)⟩
    unfold commentFormat
    rw [e, splitOn_one (by decide), splitOn_none h1]
    show (do
      let w ← Except.ok (natStr a ++ ':' :: natStr b)
      (splitOn ':' w).mapM fun x => do
        let n ← pyInt x
        if n < 0 then Except.error PyErr.valueError else Except.ok n.toNat) = _
    simp only [bind, Except.bind]
    rw [splitOn_one (natStr_no a (by decide)), splitOn_none (natStr_no b (by decide))]
    have hn : ∀ n : ℕ, ¬ (n : ℤ) < 0 := by intro n; omega
    simp [pure, Except.pure, bind, Except.bind, hn]
  have hi : isInfix "FILE_FORMAT".toList ("FILE_FORMAT=".toList ++ natStr a ++ ':' :: natStr b) = true :=
    isInfix_iff.2 ⟨[], '=' :: (natStr a ++ ':' :: natStr b), by
      rw [show "FILE_FORMAT=".toList = "FILE_FORMAT".toList ++ ['='] from rfl]
      simp only [List.append_assoc, List.cons_append, List.nil_append]⟩
  unfold PState.parseLine
  rw [hp, List.nil_append, show ({ s with prev := [] } : PState) = s by rw [← hp]]
  simp only
  generalize hT : (SettingLine.fileFormat a b).text = T at hsp hl
  have hT' : T = ';' :: ("FILE_FORMAT=".toList ++ natStr a ++ ':' :: natStr b) := by rw [← hT]; rfl
  rw [strip_of_no_space hsp, if_neg (by rw [hT']; exact List.cons_ne_nil _ _)]
  have hd : s.dispatch T = s.commentLine T := by rw [hT']; rfl
  rw [hd]
  unfold PState.commentLine
  simp only [hl]
  unfold PState.commentLineFormat PState.commentLinePlating
  rw [if_pos hi, hf]
  rw [not_infix_of_mem (c := 'Y') (t := "TYPE=NON_PLATED".toList) (by decide) (nd _ (by decide) (by decide)),
    not_infix_of_mem (c := 'Y') (t := "TYPE=PLATED".toList) (by decide) (nd _ (by decide) (by decide)),
    not_infix_of_mem (c := 'H') (t := "HEADER:".toList) (by decide) (nd _ (by decide) (by decide)),
    not_infix_of_mem (c := 'H') (t := " Holesize ".toList) (by decide) (nd _ (by decide) (by decide))]
  rfl

/-- **C53** One setting line: the settings become what the line says and nothing else changes, whatever
the state of the parser is. -/
theorem C53_line (s : PState) (hp : s.prev = []) (l : SettingLine) :
    ∃ s', s.parseLine l.text = .ok s' ∧ s'.reading = l.apply s.reading ∧ SameElse s s' := by
  have key : ∀ (line : Str), line ≠ [] → line.all (fun c => !isSpace c) = true →
      s.parseLine line = s.dispatch line := by
    intro line h1 h2
    unfold PState.parseLine
    rw [hp, List.nil_append, show ({ s with prev := [] } : PState) = s by rw [← hp]]
    simp only
    rw [strip_of_no_space h2, if_neg h1]
  cases l with
  | unit i z f =>
    rcases unit_formats f with rfl | rfl | rfl | rfl <;> cases i <;> cases z <;>
      exact ⟨_, (key _ (by decide) (by decide)).trans rfl, rfl, ⟨rfl, rfl, rfl, rfl, rfl, rfl, rfl, rfl, rfl, rfl, rfl⟩⟩
  | measuring i =>
    cases i <;>
      exact ⟨_, (key _ (by decide) (by decide)).trans rfl, rfl, ⟨rfl, rfl, rfl, rfl, rfl, rfl, rfl, rfl, rfl, rfl, rfl⟩⟩
  | incremental i =>
    cases i <;>
      exact ⟨_, (key _ (by decide) (by decide)).trans rfl, rfl, ⟨rfl, rfl, rfl, rfl, rfl, rfl, rfl, rfl, rfl, rfl, rfl⟩⟩
  | fmat i =>
    cases i <;>
      exact ⟨_, (key _ (by decide) (by decide)).trans rfl, rfl, ⟨rfl, rfl, rfl, rfl, rfl, rfl, rfl, rfl, rfl, rfl, rfl⟩⟩
  | absolute =>
    exact ⟨_, (key _ (by decide) (by decide)).trans rfl, rfl, ⟨rfl, rfl, rfl, rfl, rfl, rfl, rfl, rfl, rfl, rfl, rfl⟩⟩
  | fileFormat a b =>
    exact ⟨_, fileFormat_line s hp a b, rfl, ⟨rfl, rfl, rfl, rfl, rfl, rfl, rfl, rfl, rfl, rfl, rfl⟩⟩

theorem text_strip (l : SettingLine) : strip l.text = l.text := by
  refine strip_of_no_space ?_
  cases l with
  | unit i z f =>
    rcases unit_formats f with rfl | rfl | rfl | rfl <;> revert i z <;> decide
  | measuring i => revert i; decide
  | incremental i => revert i; decide
  | fmat i => revert i; decide
  | absolute => decide
  | fileFormat a b => exact fileFormat_solid a b

/-- **C53** Any sequence of setting lines: the settings are changed by one line after the other, so that
for each setting the last line that names it counts. -/
theorem C53_lines (ls : List SettingLine) : ∀ (s : PState), s.prev = [] →
    ∃ s', s.run (ls.map (·.text)) = .ok s' ∧ s'.reading = ls.foldl SettingLine.apply s.reading ∧
      SameElse s s' := by
  induction ls with
  | nil => intro s _; exact ⟨s, rfl, rfl, SameElse.refl s⟩
  | cons l ls ih =>
    intro s hp
    obtain ⟨s1, h1, h2, h3⟩ := C53_line s hp l
    obtain ⟨s2, k1, k2, k3⟩ := ih s1 (h3.prev.trans hp)
    refine ⟨s2, ?_, ?_, h3.trans k3⟩
    · rw [List.map_cons, run_cons, text_strip, h1]; exact k1
    · rw [k2, h2]; rfl

/-- Three setting lines read by a new parser. -/
example : (PState.init none []).prev = [] ∧
    [SettingLine.unit false true (some 1), .incremental true, .fileFormat 4 4].foldl SettingLine.apply
      (PState.init none []).reading = ⟨"incremental", "metric", "leading", [4, 4]⟩ := ⟨rfl, rfl⟩

/-- A unit line that does not mention zeros changes them all the same: they become trailing. -/
theorem C53_units_only_violated : ∃ s s' : PState, s.prev = [] ∧ s.zeros = "leading" ∧
    s.parseLine "METRIC".toList = .ok s' ∧ s'.zeros = "trailing" :=
  ⟨PState.init none [], _, rfl, rfl, rfl, rfl⟩

/-- The same in a whole file: the hole `X01Y01`, one inch from the origin while the leading zeros are the
ones written, moves because of a unit line that names the units only. -/
theorem C53_units_only_file_violated : ∃ f g : XFile,
    parseRaw none [] (prog ["M48", "T01C0.1", "%", "T01", "X01Y01", "M30"]) = .ok f ∧
    parseRaw none [] (prog ["M48", "INCH", "T01C0.1", "%", "T01", "X01Y01", "M30"]) = .ok g ∧
    f.hits = [.hole (some 0) (1, 1)] ∧ g.hits = [.hole (some 0) (1 / 10000, 1 / 10000)] :=
  ⟨_, _, rfl, rfl, by decide +kernel, by decide +kernel⟩

end Verif.Excellon
