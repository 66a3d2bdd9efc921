import Verif.Props.Parse
import Verif.Props.Include
import Verif.Props.DrillRemarks
import Verif.Props.Ipc
import Verif.Props.ToolReport

/-! # C92: the layout of a Gerber text makes no difference -/

namespace Verif.Gerber
open Verif.Py Verif.Cam

/-! ## Specification -/

/-- White space only. -/
def Blank (s : Str) : Prop := ∀ c ∈ s, isSpace c = true

/-- The rest of the line is white space. -/
def EndsLine (s : Str) : Prop :=
  ∃ b c r, s = b ++ c :: r ∧ Blank b ∧ (c = '\n' ∨ c = '\r')

/-- The lines of a text. -/
def pieces : Str → List Str
  | [] => [[]]
  | c :: s => if c = '\n' ∨ c = '\r' then [] :: pieces s
    else match pieces s with
      | [] => [[c]]
      | p :: ps => (c :: p) :: ps

/-- The lines of a text joined to one, without the white space at both ends of each. -/
def oneLine (s : Str) : Str := (pieces s).flatMap strip

/-- `Layout brk seen bs t`: the text `t` consists of the blocks `bs` and white space between them.
`seen`: there was a parameter before this text; until then every block has to end its line.
A parameter begins at the beginning of a line or directly behind another block.
`brk`: parameters may be broken into indented lines; if the closing `%` is at the beginning of a line,
it also ends it, and blocks have to end their lines again. -/
inductive Layout (brk : Bool) : Bool → List Str → Str → Prop
  | done {seen : Bool} {gap : Str} : Blank gap → Layout brk seen [] gap
  | block {seen : Bool} {gap : Str} {c : Char} {body : Str} {bs : List Str} {t : Str} : Blank gap →
      isSpace c = false → Plain (c :: body) → '*' ∉ c :: body → (seen = false → EndsLine t) →
      Layout brk seen bs t → Layout brk seen ((c :: body ++ ['*']) :: bs) (gap ++ (c :: body ++ '*' :: t))
  | param {seen : Bool} {gap body : Str} {bs : List Str} {t : Str} : Blank gap →
      (∀ c ∈ gap.getLast?, c = '\n' ∨ c = '\r') → Plain body →
      Layout brk true bs t →
      Layout brk seen (('%' :: body ++ ['%']) :: bs) (gap ++ ('%' :: body ++ '%' :: t))
  | broken {seen : Bool} {gap text : Str} {bs : List Str} {t : Str} : brk = true → Blank gap →
      (∀ c ∈ gap.getLast?, c = '\n' ∨ c = '\r') → '%' ∉ text →
      (∀ c ∈ text.getLast?, c ≠ '\n' ∧ c ≠ '\r') → Layout brk true bs t →
      Layout brk seen (oneLine ('%' :: text ++ ['%']) :: bs) (gap ++ ('%' :: text ++ '%' :: t))

  | closed {seen : Bool} {gap text : Str} {bs : List Str} {t : Str} : brk = true → Blank gap →
      (∀ c ∈ gap.getLast?, c = '\n' ∨ c = '\r') → '%' ∉ text →
      (∃ c ∈ text.getLast?, c = '\n' ∨ c = '\r') → EndsLine t → Layout brk false bs t →
      Layout brk seen (oneLine ('%' :: text ++ ['%']) :: bs) (gap ++ ('%' :: text ++ '%' :: t))

/-- The line is read to its end, in every state of the parser. -/
def Settled (line : Str) : Prop := ∀ inc st l st' r,
  parseLine inc line.length st line = .ok (l, st', r) → r = []

/-! ## What is left of a line -/

/-- Reading what is left of a line does nothing. -/
def Stable (st : FileSettings) (old : Str) : Prop :=
  old = [] ∨ isOpenParam old = true ∨ step st old = .ok .stop

theorem parseLine_stable (inc : Includer) : ∀ (n : ℕ) (st : FileSettings) (line : Str)
    (l : List Stmt) (st' : FileSettings) (r : Str), line.length ≤ n →
    parseLine inc n st line = .ok (l, st', r) → Stable st' r := by
  intro n
  induction n with
  | zero =>
    intro st line l st' r hn h
    have : line = [] := List.length_eq_zero_iff.1 (by omega)
    subst this
    simp only [parseLine] at h
    cases h
    exact Or.inl rfl
  | succ n ih =>
    intro st line l st' r hn h
    rw [parseLine] at h
    by_cases hl : line = []
    · rw [if_pos hl] at h; cases h; exact Or.inl rfl
    rw [if_neg hl] at h
    have hsh := fun x r => step_shorter (x := x) (r := r) (st := st) hl
    cases hs : step st line with
    | error e => rw [hs] at h; cases h
    | ok x =>
      rw [hs] at h
      cases x with
      | stop => cases h; exact Or.inr (Or.inr hs)
      | eat q =>
        exact ih _ _ _ _ _ (by have := hsh _ q hs rfl; omega) h
      | yield s st1 q =>
        have hq := hsh _ q hs rfl
        simp only [bind, Except.bind] at h
        cases hp : parseLine inc n st1 q with
        | error e => rw [hp] at h; cases h
        | ok v =>
          obtain ⟨a, b, c⟩ := v
          rw [hp] at h
          cases h
          exact ih _ _ _ _ _ (by omega) hp
      | incl f q =>
        have hq := hsh _ q hs rfl
        simp only [bind, Except.bind] at h
        cases hi : inc f st with
        | error e => rw [hi] at h; cases h
        | ok w =>
          obtain ⟨l1, st1⟩ := w
          rw [hi] at h
          simp only at h
          cases hp : parseLine inc n st1 q with
          | error e => rw [hp] at h; cases h
          | ok v =>
            obtain ⟨a, b, c⟩ := v
            rw [hp] at h
            cases h
            exact ih _ _ _ _ _ (by omega) hp

theorem parse_blank {inc : Includer} {st : FileSettings} {old b : Str} {bs : List Str}
    (h : Stable st old) (hb : strip b = []) :
    parseBlocks inc st old (b :: bs) = parseBlocks inc st old bs := by
  conv_lhs => unfold parseBlocks
  simp only [hb, List.append_nil]
  by_cases h0 : old = []
  · rw [if_pos h0]
  rw [if_neg h0]
  by_cases h1 : isOpenParam old = true
  · rw [if_pos h1]
  rw [if_neg h1]
  have h2 : step st old = .ok .stop := by
    rcases h with h | h | h
    · exact absurd h h0
    · exact absurd h h1
    · exact h
  have h3 : parseLine inc old.length st old = .ok ([], st, old) := by
    cases old with
    | nil => exact absurd rfl h0
    | cons c s => simp [parseLine, h2]
  simp only [h3, bind, Except.bind]
  cases parseBlocks inc st old bs with
  | error e => rfl
  | ok v => rfl

theorem parse_blanks {inc : Includer} {st : FileSettings} {old : Str} {bl bs : List Str}
    (h : Stable st old) (hb : ∀ b ∈ bl, strip b = []) :
    parseBlocks inc st old (bl ++ bs) = parseBlocks inc st old bs := by
  induction bl with
  | nil => rfl
  | cons b bl ih =>
    rw [List.cons_append, parse_blank h (hb b (by simp))]
    exact ih fun c hc => hb c (by simp [hc])

/-- Two lists of commands that are read alike from every state left behind by a line. -/
theorem parse_congr {inc : Includer} {bs bs' : List Str} (P : FileSettings → Str → Prop)
    {st : FileSettings} {old b b' : Str} (hb : strip b = strip b') (h0 : P st old)
    (h1 : ∀ x, isOpenParam x = true → x = old ++ strip b → P st x)
    (h2 : ∀ l st' r, parseLine inc (old ++ strip b).length st (old ++ strip b) = .ok (l, st', r) → P st' r)
    (hr : ∀ st old, P st old → parseBlocks inc st old bs = parseBlocks inc st old bs') :
    parseBlocks inc st old (b :: bs) = parseBlocks inc st old (b' :: bs') := by
  conv_lhs => unfold parseBlocks
  conv_rhs => unfold parseBlocks
  rw [← hb]
  simp only
  by_cases e0 : old ++ strip b = []
  · rw [if_pos e0, if_pos e0]; exact hr _ _ h0
  rw [if_neg e0, if_neg e0]
  by_cases e1 : isOpenParam (old ++ strip b) = true
  · rw [if_pos e1, if_pos e1]; exact hr _ _ (h1 _ e1 rfl)
  rw [if_neg e1, if_neg e1]
  cases hp : parseLine inc (old ++ strip b).length st (old ++ strip b) with
  | error e => rfl
  | ok v =>
    obtain ⟨l, st', r⟩ := v
    simp only [bind, Except.bind]
    rw [hr _ _ (h2 _ _ _ hp)]

theorem parse_cons {inc : Includer} {bs bs' : List Str} {st : FileSettings} {old b b' : Str}
    (hb : strip b = strip b') (h0 : Stable st old)
    (hr : ∀ st old, Stable st old → parseBlocks inc st old bs = parseBlocks inc st old bs') :
    parseBlocks inc st old (b :: bs) = parseBlocks inc st old (b' :: bs') :=
  parse_congr Stable hb h0 (fun _ h _ => Or.inr (Or.inl h))
    (fun _ _ _ h => parseLine_stable inc _ _ _ _ _ _ le_rfl h) hr

/-! ## White space and the splitter -/

theorem isNl_iff (c : Char) : isNl c = true ↔ c = '\n' ∨ c = '\r' := by
  simp [isNl, or_comm]

theorem strip_blank {s : Str} (h : Blank s) : strip s = [] := by
  have := Verif.Ipc.strip_spaces (s := []) (w := s) h
  simpa [strip, stripBy, lstripBy, rstripBy] using this

theorem lstrip_blank {a s : Str} (h : Blank a) : lstripBy isSpace (a ++ s) = lstripBy isSpace s := by
  induction a with
  | nil => rfl
  | cons c a ih =>
    have hc := h c (by simp)
    rw [List.cons_append, lstripBy, List.dropWhile_cons, if_pos hc]
    exact ih fun d hd => h d (by simp [hd])

theorem strip_around {a s b : Str} (ha : Blank a) (hb : Blank b) : strip (a ++ s ++ b) = strip s := by
  rw [Verif.Ipc.strip_spaces hb]
  unfold strip stripBy
  rw [lstrip_blank ha]

theorem go_blank (hdr : Bool) : ∀ (gap acc s : Str), Blank gap → Blank acc → (∀ c ∈ acc, isNl c = false) →
    ∃ bl acc', (∀ b ∈ bl, strip b = []) ∧ Blank acc' ∧ (∀ c ∈ acc', isNl c = false) ∧
      (splitGo hdr acc (gap ++ s)).1 = bl ++ (splitGo hdr acc' s).1 ∧
      (∀ c ∈ gap.getLast?, isNl c = true → acc' = []) ∧ (gap = [] → acc' = acc) := by
  intro gap
  induction gap with
  | nil => intro acc s _ ha hn; exact ⟨[], acc, by simp, ha, hn, rfl, by simp, fun _ => rfl⟩
  | cons c gap ih =>
    intro acc s hg ha hn
    have hc := hg c (by simp)
    have hg' : Blank gap := fun d hd => hg d (by simp [hd])
    have hp : c ≠ '%' := by rintro rfl; cases hc
    have hs : c ≠ '*' := by rintro rfl; cases hc
    by_cases hcn : isNl c = true
    · obtain ⟨bl, acc', h1, h2, h3, h4, h5, h6⟩ := ih [] s hg' (by simp [Blank]) (by simp)
      refine ⟨if acc ≠ [] then acc :: bl else bl, acc', ?_, h2, h3, ?_, ?_, by simp⟩
      · intro b hb
        split at hb
        · rcases List.mem_cons.1 hb with rfl | hb
          · exact strip_blank ha
          · exact h1 b hb
        · exact h1 b hb
      · rw [List.cons_append]
        conv_lhs => unfold splitGo
        simp only [hp, false_and, if_false, hcn, if_true, h4]
        split <;> simp
      · intro d hd hdn
        cases gap with
        | nil => exact h6 rfl
        | cons e gap => exact h5 d (by simpa [List.getLast?_cons_cons] using hd) hdn
    · obtain ⟨bl, acc', h1, h2, h3, h4, h5, h6⟩ := ih (acc ++ [c]) s hg'
        (by intro d hd; rcases List.mem_append.1 hd with hd | hd
            · exact ha d hd
            · simp at hd; subst hd; exact hc)
        (by intro d hd; rcases List.mem_append.1 hd with hd | hd
            · exact hn d hd
            · simp at hd; subst hd; simpa using hcn)
      refine ⟨bl, acc', h1, h2, h3, ?_, ?_, by simp⟩
      · rw [List.cons_append, ← h4]
        conv_lhs => unfold splitGo
        simp [hp, hcn, hs]
      · intro d hd hdn
        cases gap with
        | nil => simp at hd; subst hd; exact absurd hdn hcn
        | cons e gap => exact h5 d (by simpa [List.getLast?_cons_cons] using hd) hdn

theorem go_on (hdr : Bool) (body : Str) : ∀ (acc rest : Str),
    (∀ c ∈ body, isNl c = false ∧ c ≠ '%' ∧ (hdr = false → c ≠ '*')) →
    splitGo hdr acc (body ++ rest) = splitGo hdr (acc ++ body) rest := by
  induction body with
  | nil => simp
  | cons c body ih =>
    intro acc rest hb
    obtain ⟨h1, h2, h3⟩ := hb c (by simp)
    rw [List.cons_append]
    conv_lhs => unfold splitGo
    have h4 : ¬(¬hdr = true ∧ c = '*') := fun h => h3 (by simpa using h.1) h.2
    simp only [h2, false_and, if_false, h1, h4, and_false, Bool.false_eq_true]
    rw [ih _ _ fun d hd => hb d (by simp [hd])]
    simp

theorem go_nl (hdr : Bool) (acc rest : Str) {c : Char} (hc : isNl c = true) (ha : acc ≠ []) :
    (splitGo hdr acc (c :: rest)).1 = acc :: (splitGo hdr [] rest).1 := by
  conv_lhs => unfold splitGo
  simp [hc, ha]

theorem go_nl0 (hdr : Bool) (rest : Str) {c : Char} (hc : isNl c = true) :
    (splitGo hdr [] (c :: rest)).1 = (splitGo hdr [] rest).1 := by
  conv_lhs => unfold splitGo
  have : c ≠ '%' := by rintro rfl; cases hc
  simp [hc, this]

theorem endsLine_parts {t : Str} (h : EndsLine t) : ∃ b c r, t = b ++ c :: r ∧ Blank b ∧
    (∀ d ∈ b, isNl d = false) ∧ isNl c = true := by
  obtain ⟨b, c, r, rfl, hb, hc⟩ := h
  induction b with
  | nil => exact ⟨[], c, r, rfl, hb, by simp, (isNl_iff c).2 hc⟩
  | cons d b ih =>
    by_cases hd : isNl d = true
    · exact ⟨[], d, b ++ c :: r, rfl, by simp [Blank], by simp, hd⟩
    · obtain ⟨b', c', r', h1, h2, h3, h4⟩ := ih fun e he => hb e (by simp [he])
      refine ⟨d :: b', c', r', by simp [h1], ?_, ?_, h4⟩
      · intro e he
        rcases List.mem_cons.1 he with rfl | he
        · exact hb _ (by simp)
        · exact h2 e he
      · intro e he
        rcases List.mem_cons.1 he with rfl | he
        · simpa using hd
        · exact h3 e he

theorem go_block {c : Char} {body acc t : Str} (hdr : Bool) (ha : Blank acc) (hc : isSpace c = false)
    (hp : Plain (c :: body)) (hs : '*' ∉ c :: body) (he : hdr = true → EndsLine t) :
    ∃ b t' bl, strip b = c :: body ++ ['*'] ∧ (∀ x ∈ bl, strip x = []) ∧
      (splitGo hdr acc (c :: body ++ '*' :: t)).1 = b :: (splitGo hdr [] t').1 ∧
      (splitGo hdr [] t).1 = bl ++ (splitGo hdr [] t').1 := by
  have hb : ∀ d ∈ c :: body, isNl d = false ∧ d ≠ '%' ∧ (hdr = false → d ≠ '*') := by
    intro d hd
    obtain ⟨h1, h2, h3⟩ := hp d hd
    exact ⟨by simp [isNl, h2, h3], h1, fun _ e => hs (e ▸ hd)⟩
  have h0 : strip (c :: body ++ ['*']) = c :: body ++ ['*'] := strip_ends hc rfl
  rw [go_on hdr _ _ _ hb]
  cases hdr with
  | false =>
    refine ⟨acc ++ (c :: body ++ ['*']), t, [], ?_, by simp, ?_, rfl⟩
    · have := strip_around (s := c :: body ++ ['*']) ha (b := []) (by simp [Blank])
      rw [List.append_nil] at this
      rw [this, h0]
    · conv_lhs => unfold splitGo
      simp [isNl]
  | true =>
    obtain ⟨b, d, r, rfl, h1, h2, h3⟩ := endsLine_parts (he rfl)
    have hb1 : ∀ e ∈ b, isNl e = false ∧ e ≠ '%' ∧ (true = false → e ≠ '*') := fun e he =>
      ⟨h2 e he, by rintro rfl; exact absurd (h1 _ he) (by decide), by simp⟩
    refine ⟨acc ++ (c :: body ++ ['*']) ++ b, r, if b = [] then [] else [b], ?_, ?_, ?_, ?_⟩
    · rw [strip_around ha h1, h0]
    · intro x hx
      split at hx
      · cases hx
      · simp at hx; subst hx; exact strip_blank h1
    · rw [show '*' :: (b ++ d :: r) = ('*' :: b) ++ d :: r by simp,
        go_on true ('*' :: b) _ _ (by
          intro e he
          rcases List.mem_cons.1 he with rfl | he
          · exact ⟨rfl, by decide, by simp⟩
          · exact hb1 e he), go_nl _ _ _ h3 (by simp)]
      simp
    · rw [go_on true b _ _ hb1]
      by_cases h : b = []
      · subst h; rw [List.append_nil, go_nl0 _ _ h3]; simp
      · rw [List.nil_append, go_nl _ _ _ h3 h]; simp [h]

/-! ## Broken parameters -/

theorem pieces_plain {s : Str} (h : ∀ c ∈ s, isNl c = false) : pieces s = [s] := by
  induction s with
  | nil => rfl
  | cons c s ih =>
    have hc : ¬(c = '\n' ∨ c = '\r') := fun e => by
      have := h c (by simp); rw [(isNl_iff c).2 e] at this; cases this
    rw [pieces, if_neg hc, ih fun d hd => h d (by simp [hd])]

theorem pieces_nl {s t : Str} {c : Char} (h : ∀ c ∈ s, isNl c = false) (hc : isNl c = true) :
    pieces (s ++ c :: t) = s :: pieces t := by
  induction s with
  | nil => rw [List.nil_append, pieces, if_pos ((isNl_iff c).1 hc)]
  | cons d s ih =>
    have hd : ¬(d = '\n' ∨ d = '\r') := fun e => by
      have := h d (by simp); rw [(isNl_iff d).2 e] at this; cases this
    rw [List.cons_append, pieces, if_neg hd, ih fun e he => h e (by simp [he])]

/-- The open parameter after some lines. -/
theorem open_strip {old acc head : Str} (hh : old ++ strip acc = '%' :: head) (hp : '%' ∉ head) :
    isOpenParam (old ++ strip acc) = true ∨ old ++ strip acc = ['%'] := by
  rw [hh]
  by_cases h : head = []
  · right; rw [h]
  · left
    have h1 : ('%' :: head).getLast? = head.getLast? := by
      obtain ⟨c, s', rfl⟩ := List.exists_cons_of_ne_nil h
      simp [List.getLast?_cons_cons]
    simp only [isOpenParam, List.head?_cons, beq_self_eq_true, Bool.true_and, h1, List.tail_cons,
      Bool.and_eq_true, Bool.not_eq_true', beq_eq_false_iff_ne, ne_eq, List.contains_eq_mem,
      decide_eq_false_iff_not]
    exact ⟨fun hc => hp (List.mem_of_getLast? hc), hp⟩

theorem step_percent (st : FileSettings) : step st ['%'] = .ok .stop := by
  unfold step
  rw [if_neg (by simp), (coord_fails_head (by decide)).pyMatch,
    (aperture_fails_head (by decide) (by decide)).pyMatch,
    show matchMany paramStmts ['%'] = none by decide +kernel]
  simp only
  rw [show reRegion.pyMatch ['%'] = none by decide +kernel,
    show reQuad.pyMatch ['%'] = none by decide +kernel,
    show reComment.pyMatch ['%'] = none by decide +kernel,
    show reDepUnit.pyMatch ['%'] = none by decide +kernel,
    show reDepFormat.pyMatch ['%'] = none by decide +kernel,
    show reEof.pyMatch ['%'] = none by decide +kernel]
  simp

/-- An open line is kept for the next one. -/
theorem parse_open {inc : Includer} {st : FileSettings} {old b head : Str} {bs : List Str}
    (hh : old ++ strip b = '%' :: head) (hp : '%' ∉ head) :
    parseBlocks inc st old (b :: bs) = parseBlocks inc st ('%' :: head) bs := by
  conv_lhs => unfold parseBlocks
  simp only
  rw [if_neg (by rw [hh]; simp)]
  rcases open_strip hh hp with h | h
  · rw [if_pos h, hh]
  · have h2 : head = [] := by rw [hh] at h; simpa using h
    subst h2
    rw [hh, if_neg (by decide)]
    have h3 : parseLine inc ['%'].length st ['%'] = .ok ([], st, ['%']) := by
      simp [parseLine, step_percent]
    simp only [h3, bind, Except.bind]
    cases parseBlocks inc st ['%'] bs with
    | error e => rfl
    | ok v => rfl

theorem strip_mem {s : Str} {c : Char} (h : c ∈ strip s) : c ∈ s := by
  obtain ⟨a, b, h1, _⟩ := Verif.Excellon.strip_parts s
  rw [h1]; simp [h]

/-- The last line of a parameter. -/
theorem parse_last {inc : Includer} {st : FileSettings} {old b : Str} {bs : List Str} (x : Str)
    (hx : old ++ strip b = x) (hs : strip x = x) :
    parseBlocks inc st old (b :: bs) = parseBlocks inc st [] (x :: bs) := by
  subst hx
  conv_lhs => unfold parseBlocks
  conv_rhs => unfold parseBlocks
  simp only [List.nil_append, hs]
  by_cases h : old ++ strip b = []
  · rw [if_pos h, if_pos h]
    simp only [List.append_eq_nil_iff] at h
    rw [h.1]
  · rw [if_neg h, if_neg h]

theorem strip_ne_nil {s : Str} {c : Char} (h : c ∈ s) (hc : isSpace c = false) : strip s ≠ [] := by
  intro e
  obtain ⟨a, b, h1, h2, h3⟩ := Verif.Excellon.strip_parts s
  rw [e, List.append_nil] at h1
  rw [h1] at h
  rcases List.mem_append.1 h with h | h
  · rw [h2 c h] at hc; cases hc
  · rw [h3.1 c h] at hc; cases hc

theorem head_of {old acc w : Str} (h : old ++ acc = '%' :: w) (hw : '%' ∉ w) :
    ∃ head, old ++ strip acc = '%' :: head ∧ '%' ∉ head := by
  cases old with
  | nil =>
    rw [List.nil_append] at h ⊢
    subst h
    have hne : strip ('%' :: w) ≠ [] := strip_ne_nil (c := '%') (by simp) rfl
    obtain ⟨a, b, h1, h2, h3⟩ := Verif.Excellon.strip_parts ('%' :: w)
    cases a with
    | cons d a =>
      have : d = '%' := by simp at h1; exact h1.1.symm
      subst this
      exact absurd (h2 '%' (by simp)) (by decide)
    | nil =>
      cases hs : strip ('%' :: w) with
      | nil => exact absurd hs hne
      | cons d t =>
        rw [hs] at h1
        simp at h1
        obtain ⟨rfl, h1⟩ := h1
        exact ⟨t, rfl, fun ht => hw (by rw [h1]; simp [ht])⟩
  | cons d old =>
    simp at h
    obtain ⟨rfl, rfl⟩ := h
    simp at hw
    refine ⟨old ++ strip acc, rfl, ?_⟩
    simp only [List.mem_append, not_or]
    exact ⟨hw.1, fun h => hw.2 (strip_mem h)⟩

/-- The lines of a broken parameter are joined. -/
theorem broken_go {inc : Includer} {st : FileSettings} (rest : Str) (own : Bool) (K : List Str)
    (hbase : ∀ acc : Str, (∀ c ∈ acc, isNl c = false) → (acc.getLast?.all isNl = own) →
      ∃ y, (splitGo true acc ('%' :: rest)).1 = y :: K ∧ strip y = strip (acc ++ ['%'])) :
    ∀ (text acc old w : Str), old ++ acc = '%' :: w → '%' ∉ w → (∀ c ∈ acc, isNl c = false) →
      '%' ∉ text → (acc ++ text).getLast?.all isNl = own →
      parseBlocks inc st old (splitGo true acc (text ++ '%' :: rest)).1 =
        parseBlocks inc st [] ((old ++ oneLine (acc ++ text ++ ['%'])) :: K) := by
  intro text
  induction text with
  | nil =>
    intro acc old w hw hp hn _ ho
    rw [List.append_nil] at ho
    obtain ⟨y, h1, h2⟩ := hbase acc hn ho
    rw [List.nil_append, h1, List.append_nil, oneLine, pieces_plain (s := acc ++ ['%']) (by
      intro c hc
      rcases List.mem_append.1 hc with hc | hc
      · exact hn c hc
      · simp at hc; subst hc; rfl)]
    simp only [List.flatMap_cons, List.flatMap_nil, List.append_nil]
    have hne : strip (acc ++ ['%']) ≠ [] := strip_ne_nil (c := '%') (by simp) rfl
    refine parse_last _ (by rw [h2]) (Verif.Excellon.strip_self ?_ ?_)
    · cases old with
      | nil => exact Verif.Excellon.strip_first _
      | cons d old =>
        simp at hw
        obtain ⟨rfl, _⟩ := hw
        intro c hc; simp at hc; subst hc; rfl
    · intro c hc
      rw [List.getLast?_append_of_ne_nil _ hne] at hc
      exact Verif.Excellon.strip_last _ c hc
  | cons c text ih =>
    intro acc old w hw hp hn ht ho
    have ht' : '%' ∉ text := fun h => ht (by simp [h])
    have hc : c ≠ '%' := fun h => ht (by simp [h])
    by_cases hcn : isNl c = true
    · have e1 : oneLine (acc ++ c :: text ++ ['%']) = strip acc ++ oneLine (text ++ ['%']) := by
        rw [oneLine, show acc ++ c :: text ++ ['%'] = acc ++ c :: (text ++ ['%']) by simp,
          pieces_nl hn hcn]
        rfl
      have ho' : (([] : Str) ++ text).getLast?.all isNl = own := by
        rw [← ho]
        cases text with
        | nil => simp [hcn]
        | cons d text =>
          rw [List.nil_append, List.getLast?_append_of_ne_nil acc (by simp), List.getLast?_cons_cons]
      obtain ⟨head, h1, h2⟩ := head_of hw hp
      have := ih [] ('%' :: head) head (by simp) h2 (by simp) ht' ho'
      rw [e1, List.cons_append, ← List.append_assoc, h1]
      rw [List.nil_append] at this
      rw [← this]
      by_cases ha : acc = []
      · subst ha
        rw [go_nl0 _ _ hcn]
        simp [strip, stripBy, lstripBy, rstripBy] at h1
        rw [h1]
      · rw [go_nl _ _ _ hcn ha]
        exact parse_open h1 h2
    · rw [List.cons_append]
      have e : splitGo true acc (c :: (text ++ '%' :: rest)) =
          splitGo true (acc ++ [c]) (text ++ '%' :: rest) := by
        conv_lhs => unfold splitGo
        simp [hc, hcn]
      rw [e, ih (acc ++ [c]) old (w ++ [c]) (by rw [← List.append_assoc, hw]; rfl)
        (by simp [hp, Ne.symm hc]) ?_ ht' (by simpa using ho)]
      · simp
      · intro d hd
        rcases List.mem_append.1 hd with hd | hd
        · exact hn d hd
        · simp at hd; subst hd; simpa using hcn

theorem strip_percent (p : Str) : (strip ('%' :: p)).head? = some '%' := by
  obtain ⟨a, b, h1, h2, _⟩ := Verif.Excellon.strip_parts ('%' :: p)
  have hne : strip ('%' :: p) ≠ [] := strip_ne_nil (c := '%') (by simp) rfl
  cases a with
  | cons d a =>
    have : d = '%' := by simp at h1; exact h1.1.symm
    subst this
    exact absurd (h2 '%' (by simp)) (by decide)
  | nil =>
    cases hs : strip ('%' :: p) with
    | nil => exact absurd hs hne
    | cons d t =>
      rw [hs] at h1
      simp at h1
      rw [← h1.1]; rfl

theorem strip_percent_end (p : Str) : (strip (p ++ ['%'])).getLast? = some '%' := by
  obtain ⟨a, b, h1, h2, h3, _⟩ := Verif.Excellon.strip_parts (p ++ ['%'])
  have hne : strip (p ++ ['%']) ≠ [] := strip_ne_nil (c := '%') (by simp) rfl
  have hl := congrArg List.getLast? h1
  have hb : b = [] := by
    by_contra hb
    rw [List.getLast?_append_of_ne_nil _ hb] at hl
    simp at hl
    exact absurd (h3 '%' (List.mem_of_getLast? hl.symm)) (by decide)
  subst hb
  rw [List.append_nil, List.getLast?_append_of_ne_nil _ hne] at hl
  rw [← hl]; simp

theorem oneLine_head (s : Str) : (oneLine ('%' :: s)).head? = some '%' := by
  have : ∃ p ps, pieces ('%' :: s) = ('%' :: p) :: ps := by
    rw [pieces, if_neg (by decide)]
    split
    · exact ⟨_, _, rfl⟩
    · exact ⟨_, _, rfl⟩
  obtain ⟨p, ps, h⟩ := this
  rw [oneLine, h, List.flatMap_cons, List.head?_append, strip_percent]
  rfl

theorem oneLine_last (text : Str) : ∀ acc : Str, (∀ c ∈ acc, isNl c = false) →
    (oneLine (acc ++ text ++ ['%'])).getLast? = some '%' := by
  induction text with
  | nil =>
    intro acc hn
    rw [List.append_nil, oneLine, pieces_plain (s := acc ++ ['%']) (by
      intro c hc
      rcases List.mem_append.1 hc with hc | hc
      · exact hn c hc
      · simp at hc; subst hc; rfl)]
    simpa using strip_percent_end acc
  | cons c text ih =>
    intro acc hn
    by_cases hc : isNl c = true
    · have e1 : oneLine (acc ++ c :: text ++ ['%']) = strip acc ++ oneLine (text ++ ['%']) := by
        rw [oneLine, show acc ++ c :: text ++ ['%'] = acc ++ c :: (text ++ ['%']) by simp,
          pieces_nl hn hc]
        rfl
      have := ih [] (by simp)
      rw [List.nil_append] at this
      rw [e1, List.getLast?_append, this]; rfl
    · have := ih (acc ++ [c]) (by
        intro d hd
        rcases List.mem_append.1 hd with hd | hd
        · exact hn d hd
        · simp at hd; subst hd; simpa using hc)
      simpa using this

/-- A parameter that has been joined is read like one that was not broken. -/
theorem parse_joined {inc : Includer} {st : FileSettings} {text : Str} {K bs : List Str}
    (hset : Settled (oneLine ('%' :: text ++ ['%'])))
    (hr : ∀ st, parseBlocks inc st [] K = parseBlocks inc st [] bs) :
    parseBlocks inc st [] (oneLine ('%' :: text ++ ['%']) :: K) =
      parseBlocks inc st [] (oneLine ('%' :: text ++ ['%']) :: bs) := by
  have h1 : (oneLine ('%' :: text ++ ['%'])).head? = some '%' := oneLine_head _
  have h2 : (oneLine ('%' :: text ++ ['%'])).getLast? = some '%' := by
    have := oneLine_last text ['%'] (by simp [isNl])
    simpa using this
  have h3 : strip (oneLine ('%' :: text ++ ['%'])) = oneLine ('%' :: text ++ ['%']) := by
    apply Verif.Excellon.strip_self
    · rw [h1]; intro c hc; simp at hc; subst hc; rfl
    · rw [h2]; intro c hc; simp at hc; subst hc; rfl
  refine parse_congr (fun _ old => old = []) rfl rfl ?_ ?_ ?_
  · rintro x hx rfl
    rw [List.nil_append, h3] at hx
    simp only [isOpenParam] at hx
    rw [h2] at hx
    simp at hx
  · intro l st' r h
    rw [List.nil_append, h3] at h
    exact hset inc _ _ _ _ h
  · rintro st _ rfl
    exact hr st

/-! ## Lines that are read to their end -/

theorem pyMatch_suffix {a : Re} {s r : Str} {cs : Caps} (hm : a.pyMatch s = some (cs, r)) : r <:+ s := by
  unfold Re.pyMatch at hm
  cases hr : a.run s with
  | nil => rw [hr] at hm; simp at hm
  | cons m l =>
    rw [hr] at hm
    simp only [List.head?_cons, Option.map_some, Option.some.injEq] at hm
    have h1 := Re.run_split a s m (by rw [hr]; simp)
    rw [hm] at h1
    exact ⟨m.1, h1.symm⟩

theorem matchMany_suffix {l : List Re} {s r : Str} {cs : Caps} (hm : matchMany l s = some (cs, r)) :
    r <:+ s := by
  unfold matchMany at hm
  rw [List.findSome?_eq_some_iff] at hm
  obtain ⟨l1, a, l2, rfl, ha, _⟩ := hm
  exact pyMatch_suffix ha

private theorem bind_ok' {α β : Type} {x : PyR α} {f : α → PyR β} {b : β} (h : (x >>= f) = .ok b) :
    ∃ a, x = .ok a ∧ f a = .ok b := by
  cases x with
  | error e => cases h
  | ok a => exact ⟨a, rfl, h⟩

/-- What is left after a round is an end of the line, and the loop stops only at a line without `*`. -/
theorem step_suffix {st : FileSettings} {line : Str} {x : StepRes} (h : step st line = .ok x) :
    (∀ r, x.rest? = some r → r <:+ line) ∧ (x.rest? = none → '*' ∉ line) := by
  unfold step at h
  split at h
  · cases h
    refine ⟨fun r hr => ?_, fun hr => by cases hr⟩
    cases hr; exact List.tail_suffix _
  split at h
  · rename_i hm
    obtain ⟨c, _, h⟩ := bind_ok' h
    cases h
    refine ⟨fun r hr => ?_, fun hr => by cases hr⟩
    cases hr; exact pyMatch_suffix hm
  split at h
  · rename_i hm
    obtain ⟨c, _, h⟩ := bind_ok' h
    cases h
    refine ⟨fun r hr => ?_, fun hr => by cases hr⟩
    cases hr; exact pyMatch_suffix hm
  split at h
  · rename_i hm
    have := matchMany_suffix hm
    obtain ⟨c, _, h⟩ := bind_ok' h
    cases c <;> cases h
    · exact ⟨fun r hr => by cases hr; exact this, fun hr => by cases hr⟩
    · exact ⟨fun r hr => by cases hr; exact this, fun hr => by cases hr⟩
  iterate 6
    split at h
    · rename_i hm
      cases h
      refine ⟨fun r hr => ?_, fun hr => by cases hr⟩
      cases hr; exact pyMatch_suffix hm
  split at h
  · cases h
    exact ⟨fun r hr => by cases hr; exact List.nil_suffix, fun hr => by cases hr⟩
  · rename_i hn
    cases h
    exact ⟨fun r hr => (by cases hr), fun _ => hn⟩

/-- A line that ends with `*` is read to its end. -/
theorem star_settled (inc : Includer) : ∀ (n : ℕ) (st : FileSettings) (line : Str)
    (l : List Stmt) (st' : FileSettings) (r : Str), line.length ≤ n → (line = [] ∨ ∃ s, line = s ++ ['*']) →
    parseLine inc n st line = .ok (l, st', r) → r = [] := by
  intro n
  induction n with
  | zero =>
    intro st line l st' r hn _ h
    have : line = [] := List.length_eq_zero_iff.1 (by omega)
    subst this
    simp only [parseLine] at h
    cases h
    rfl
  | succ n ih =>
    intro st line l st' r hn he h
    rw [parseLine] at h
    by_cases hl : line = []
    · rw [if_pos hl] at h; cases h; rfl
    rw [if_neg hl] at h
    obtain ⟨s, rfl⟩ : ∃ s, line = s ++ ['*'] := he.resolve_left hl
    have hsh := fun x r => step_shorter (x := x) (r := r) (st := st) hl
    have hend : ∀ q, q <:+ s ++ ['*'] → q = [] ∨ ∃ s', q = s' ++ ['*'] := by
      rintro q ⟨p, hp⟩
      rcases q.eq_nil_or_concat with h | ⟨q', d, h⟩
      · exact Or.inl h
      · right
        rw [h] at hp
        have := congrArg List.getLast? hp
        simp at this
        exact ⟨q', by rw [h, this]; simp⟩
    cases hs : step st (s ++ ['*']) with
    | error e => rw [hs] at h; cases h
    | ok x =>
      have hsu := step_suffix hs
      rw [hs] at h
      cases x with
      | stop => exact absurd (by simp) (hsu.2 rfl)
      | eat q =>
        exact ih _ _ _ _ _ (by have := hsh _ q hs rfl; omega) (hend q (hsu.1 q rfl)) h
      | yield s st1 q =>
        have hq := hsh _ q hs rfl
        simp only [bind, Except.bind] at h
        cases hp : parseLine inc n st1 q with
        | error e => rw [hp] at h; cases h
        | ok v =>
          obtain ⟨a, b, c⟩ := v
          rw [hp] at h
          cases h
          exact ih _ _ _ _ _ (by omega) (hend q (hsu.1 q rfl)) hp
      | incl f q =>
        have hq := hsh _ q hs rfl
        simp only [bind, Except.bind] at h
        cases hi : inc f st with
        | error e => rw [hi] at h; cases h
        | ok w =>
          obtain ⟨l1, st1⟩ := w
          rw [hi] at h
          simp only at h
          cases hp : parseLine inc n st1 q with
          | error e => rw [hp] at h; cases h
          | ok v =>
            obtain ⟨a, b, c⟩ := v
            rw [hp] at h
            cases h
            exact ih _ _ _ _ _ (by omega) (hend q (hsu.1 q rfl)) hp

/-- A line that one parameter expression matches to its end is read to its end. -/
theorem settled_of_match {t : Str} {m : Caps} (hm : matchMany paramStmts ('%' :: t) = some (m, [])) :
    Settled ('%' :: t) := by
  intro inc st l st' r h
  rw [List.length_cons, parseLine, if_neg (by simp)] at h
  have hs : step st ('%' :: t) = (do
      match ← paramStmt st ('%' :: t) m with
      | .stmt s st' => .ok (.yield s st' [])
      | .incl f => .ok (.incl f [])) := by
    unfold step
    rw [if_neg (by simp), (coord_fails_head (by decide)).pyMatch,
      (aperture_fails_head (by decide) (by decide)).pyMatch, hm]
    rfl
  have hnil : ∀ n st, parseLine inc n st [] = .ok ([], st, []) := by
    intro n st; cases n <;> simp [parseLine]
  rw [hs] at h
  cases hp : paramStmt st ('%' :: t) m with
  | error e => rw [hp] at h; cases h
  | ok x =>
    rw [hp] at h
    cases x with
    | stmt s st1 =>
      simp only [bind, Except.bind, hnil] at h
      cases h; rfl
    | incl f =>
      simp only [bind, Except.bind, hnil] at h
      cases hi : inc f st with
      | error e => rw [hi] at h; cases h
      | ok w => rw [hi] at h; cases h; rfl

/-! ## Layouts -/

theorem layout_go {brk seen : Bool} {bs : List Str} {t : Str} (h : Layout brk seen bs t)
    (inc : Includer) (hs : brk = true → ∀ b ∈ bs, b.head? = some '%' → Settled b) :
    ∀ st old, Stable st old → (brk = true → old = []) →
      parseBlocks inc st old (splitGo (!seen) [] t).1 = parseBlocks inc st old bs := by
  induction h with
  | @done seen gap hg =>
    intro st old h0 _
    obtain ⟨bl, acc, h1, _, _, h4, _⟩ := go_blank (!seen) gap [] [] hg (by simp [Blank]) (by simp)
    rw [List.append_nil] at h4
    rw [h4, parse_blanks h0 h1]
    simp [splitGo]
  | @block seen gap c body bs t hg hc hp hst he _ ih =>
    intro st old h0 ho
    obtain ⟨bl, acc, h1, h2, h3, h4, _⟩ := go_blank (!seen) gap [] (c :: body ++ '*' :: t) hg
      (by simp [Blank]) (by simp)
    rw [h4, parse_blanks h0 h1]
    obtain ⟨b, t', bl', k1, k2, k3, k4⟩ := go_block (t := t) (!seen) h2 hc hp hst (by simpa using he)
    rw [k3]
    refine parse_congr (fun st old => Stable st old ∧ (brk = true → old = [])) ?_ ⟨h0, ho⟩ ?_ ?_ ?_
    · rw [k1, strip_ends hc rfl]
    · rintro x hx rfl
      refine ⟨Or.inr (Or.inl hx), fun hb => ?_⟩
      rw [ho hb, List.nil_append, k1] at hx
      have := (hp c (by simp)).1
      simp [isOpenParam, this] at hx
    · intro l st' r hr
      refine ⟨parseLine_stable inc _ _ _ _ _ _ le_rfl hr, fun hb => ?_⟩
      rw [ho hb, List.nil_append, k1] at hr
      exact star_settled inc _ _ _ _ _ _ le_rfl (Or.inr ⟨_, rfl⟩) hr
    · rintro st old ⟨h0, ho⟩
      rw [← ih (fun hb b hm => hs hb b (by simp [hm])) st old h0 ho, k4, parse_blanks h0 k2]
  | @param seen gap body bs t hg hl hp _ ih =>
    intro st old h0 ho
    obtain ⟨bl, acc, h1, h2, h3, h4, h5, h6⟩ := go_blank (!seen) gap [] ('%' :: body ++ '%' :: t) hg
      (by simp [Blank]) (by simp)
    have ha : acc = [] := by
      cases hgl : gap.getLast? with
      | none => exact h6 (List.getLast?_eq_none_iff.1 hgl)
      | some c => exact h5 c hgl ((isNl_iff c).2 (hl c hgl))
    subst ha
    rw [h4, parse_blanks h0 h1, C12_parameter_is_one_command _ body t hp]
    refine parse_congr (fun st old => Stable st old ∧ (brk = true → old = [])) rfl ⟨h0, ho⟩ ?_ ?_ ?_
    · rintro x hx rfl
      refine ⟨Or.inr (Or.inl hx), fun hb => ?_⟩
      rw [ho hb, List.nil_append, strip_ends rfl rfl] at hx
      simp [isOpenParam] at hx
    · intro l st' r hr
      refine ⟨parseLine_stable inc _ _ _ _ _ _ le_rfl hr, fun hb => ?_⟩
      rw [ho hb, List.nil_append, strip_ends rfl rfl] at hr
      exact hs hb _ (by simp) (by simp) inc _ _ _ _ hr
    · rintro st old ⟨h0, ho⟩
      exact ih (fun hb b hm => hs hb b (by simp [hm])) st old h0 ho
  | @broken seen gap text bs t hb hg hl hp hown _ ih =>
    intro st old h0 ho
    obtain ⟨bl, acc, h1, h2, h3, h4, h5, h6⟩ := go_blank (!seen) gap [] ('%' :: text ++ '%' :: t) hg
      (by simp [Blank]) (by simp)
    have ha : acc = [] := by
      cases hgl : gap.getLast? with
      | none => exact h6 (List.getLast?_eq_none_iff.1 hgl)
      | some c => exact h5 c hgl ((isNl_iff c).2 (hl c hgl))
    subst ha
    rw [h4, parse_blanks h0 h1]
    obtain rfl := ho hb
    have e : splitGo (!seen) [] ('%' :: text ++ '%' :: t) = splitGo true ['%'] (text ++ '%' :: t) := by
      rw [List.cons_append]; conv_lhs => unfold splitGo
      simp
    rw [e, broken_go t false (splitGo false [] t).1 ?_ text ['%'] [] [] rfl (by simp) (by simp [isNl]) hp ?_]
    · refine parse_joined (hs hb _ (by simp) (oneLine_head _)) fun st => ?_
      exact ih (fun hb b hm => hs hb b (by simp [hm])) st [] (Or.inl rfl) fun _ => rfl
    · intro acc hn hlast
      have hne : acc ≠ [] := by rintro rfl; simp at hlast
      refine ⟨acc ++ ['%'], ?_, rfl⟩
      conv_lhs => unfold splitGo
      simp [hne, isNl]
    · cases text with
      | nil => rfl
      | cons c text =>
        rw [List.getLast?_append_of_ne_nil _ (by simp)]
        cases hgl : (c :: text).getLast? with
        | none => simp at hgl
        | some d =>
          have := hown d hgl
          simp [isNl, this.1, this.2]
  | @closed seen gap text bs t hb hg hl hp hown he _ ih =>
    intro st old h0 ho
    obtain ⟨bl, acc, h1, h2, h3, h4, h5, h6⟩ := go_blank (!seen) gap [] ('%' :: text ++ '%' :: t) hg
      (by simp [Blank]) (by simp)
    have ha : acc = [] := by
      cases hgl : gap.getLast? with
      | none => exact h6 (List.getLast?_eq_none_iff.1 hgl)
      | some c => exact h5 c hgl ((isNl_iff c).2 (hl c hgl))
    subst ha
    rw [h4, parse_blanks h0 h1]
    obtain rfl := ho hb
    have e : splitGo (!seen) [] ('%' :: text ++ '%' :: t) = splitGo true ['%'] (text ++ '%' :: t) := by
      rw [List.cons_append]; conv_lhs => unfold splitGo
      simp
    obtain ⟨b, d, r, rfl, b1, b2, b3⟩ := endsLine_parts he
    have hb1 : ∀ e ∈ b, isNl e = false ∧ e ≠ '%' ∧ (true = false → e ≠ '*') := fun e he =>
      ⟨b2 e he, by rintro rfl; exact absurd (b1 _ he) (by decide), by simp⟩
    rw [e, broken_go (b ++ d :: r) true (splitGo true [] r).1 ?_ text ['%'] [] [] rfl (by simp)
      (by simp [isNl]) hp ?_]
    · refine parse_joined (hs hb _ (by simp) (oneLine_head _)) fun st => ?_
      have := ih (fun hb b hm => hs hb b (by simp [hm])) st [] (Or.inl rfl) fun _ => rfl
      rw [← this, Bool.not_false, go_on true b _ _ hb1]
      by_cases h : b = []
      · subst h; rw [List.append_nil, go_nl0 _ _ b3]
      · rw [List.nil_append, go_nl _ _ _ b3 h, parse_blank (Or.inl rfl) (strip_blank b1)]
    · intro acc hn hlast
      have hnil : acc = [] := by
        cases hgl : acc.getLast? with
        | none => exact List.getLast?_eq_none_iff.1 hgl
        | some c =>
          rw [hgl] at hlast
          rw [Option.all_some, hn c (List.mem_of_getLast? hgl)] at hlast
          cases hlast
      subst hnil
      refine ⟨'%' :: b, ?_, ?_⟩
      · have e2 : splitGo true [] ('%' :: (b ++ d :: r)) = splitGo true ['%'] (b ++ d :: r) := by
          conv_lhs => unfold splitGo
          simp
        rw [e2, go_on true b _ _ hb1, go_nl _ _ _ b3 (by simp)]
        rfl
      · have := strip_around (a := []) (s := ['%']) (b := b) (by simp [Blank]) b1
        simpa using this
    · obtain ⟨c, hc, hcn⟩ := hown
      have hne : text ≠ [] := by rintro rfl; simp at hc
      rw [List.getLast?_append_of_ne_nil _ hne, Option.mem_def.1 hc]
      simpa using (isNl_iff c).2 hcn

/-! ## Theorems -/

/-- **C92.** A Gerber text is read as the sequence of its blocks: white space and line breaks between
the blocks make no difference. -/
theorem C92_layout {bs : List Str} {t t' : Str} (h : Layout false false bs t) (h' : Layout false false bs t')
    (fs : Str → Option Str) : parseText fs t = parseText fs t' := by
  unfold parseText parseData
  simp only [splitCommands]
  have k := layout_go h
  have k' := layout_go h'
  rw [Bool.not_false] at k k'
  rw [k _ (by simp) _ _ (Or.inl rfl) fun _ => rfl, k' _ (by simp) _ _ (Or.inl rfl) fun _ => rfl]

/-- **C92.** The same for texts in which parameters are broken into lines, if every parameter is
read to its end. -/
theorem C92_broken_partial {bs : List Str} {t t' : Str} (h : Layout true false bs t)
    (h' : Layout true false bs t') (hs : ∀ b ∈ bs, b.head? = some '%' → Settled b)
    (fs : Str → Option Str) : parseText fs t = parseText fs t' := by
  unfold parseText parseData
  simp only [splitCommands]
  have k := layout_go h
  have k' := layout_go h'
  rw [Bool.not_false] at k k'
  rw [k _ (fun _ => hs) _ _ (Or.inl rfl) fun _ => rfl, k' _ (fun _ => hs) _ _ (Or.inl rfl) fun _ => rfl]

/-- **C92.** Aperture macros are read to their end, so they may be broken anywhere. -/
theorem C92_macro_settled {name body : Str} (hn : IsName name) (hb : '%' ∉ body) :
    Settled ('%' :: 'A' :: 'M' :: (name ++ '*' :: (body ++ ['*', '%']))) :=
  settled_of_match (match_am hn (by
    rw [List.all_eq_true]
    intro c hc
    have : c ≠ '%' := by rintro rfl; exact hb hc
    simpa using this))

/-- The statements of a text, each as it would be written (of macros, whose primitives are only read when
the picture is made, the name). -/
def statementTexts (t : String) : Option (List String) :=
  match parseText (fun _ => none) t.toList with
  | .ok (l, _) => l.mapM fun s => match s.toGerber defaultSettings with
    | .ok x => some (String.ofList x)
    | .error _ => none
  | .error _ => none

/-- The closing `%` of a macro at the beginning of a line, directly followed by the rest of a file that
does not end with a line break: the macro and everything behind it are lost. -/
theorem C92_own_line_violated :
    statementTexts "%AMAB*\n1,1,1,0,0*%G36*M02*" = some ["%AMAB*%", "G36*", "M02*"] ∧
    statementTexts "%AMAB*\n1,1,1,0,0*\n%G36*M02*" = some [] := by
  decide +kernel

/-- Before the first parameter a space between two blocks turns the second into an unknown statement. -/
theorem C92_space_violated :
    statementTexts "G36*G37*\nM02*\n" = some ["G36*", "G37*", "M02*"] ∧
    statementTexts "G36* G37*\nM02*\n" = some ["G36*", " G37*", "M02*"] := by
  decide +kernel

/-- An empty block or a comment at the end of a parameter makes everything up to the next parameter
disappear. -/
theorem C92_swallowed_violated :
    statementTexts "%LPD*%\nG36*\nM02*\n" = some ["%LPD*%", "G36*", "M02*"] ∧
    statementTexts "%LPD**%\nG36*\nM02*\n" = some ["%LPD*%"] ∧
    statementTexts "%LPD*G04 dark*%\nG36*\nM02*\n" = some ["%LPD*%", "G04 dark*"] ∧
    ¬Settled "%LPD**%".toList := by
  refine ⟨by decide +kernel, by decide +kernel, by decide +kernel, fun h => ?_⟩
  have h1 : parseLine (fun _ _ => .error .ioError) "%LPD**%".toList.length defaultSettings "%LPD**%".toList =
      .ok ([.lp "dark"], defaultSettings, ['%']) := by rfl
  exact absurd (h _ _ _ _ _ h1) (by decide)

/-! ## Examples -/

local instance (s : Str) : Decidable (Blank s) := by unfold Blank; infer_instance
local instance (s : Str) : Decidable (Plain s) := by unfold Plain; infer_instance

/-- Blocks on lines of their own and blocks one after the other. -/
example : Layout false false ["G04 a*".toList, "%MOIN*%".toList, "G36*".toList, "G37*".toList]
      "  G04 a* \r\n\r\n%MOIN*%\n  G36*\n\tG37*\n\n".toList ∧
    Layout false false ["G04 a*".toList, "%MOIN*%".toList, "G36*".toList, "G37*".toList]
      "G04 a*\n%MOIN*%G36*G37*".toList := by
  constructor
  · refine Layout.block (gap := "  ".toList) (c := 'G') (body := "04 a".toList)
      (t := " \r\n\r\n%MOIN*%\n  G36*\n\tG37*\n\n".toList) (by decide) rfl (by decide) (by decide)
      (fun _ => ⟨[' '], '\r', _, rfl, by decide, Or.inr rfl⟩) ?_
    refine Layout.param (gap := " \r\n\r\n".toList) (body := "MOIN*".toList)
      (t := "\n  G36*\n\tG37*\n\n".toList) (by decide) (by decide) (by decide) ?_
    refine Layout.block (gap := "\n  ".toList) (c := 'G') (body := "36".toList)
      (t := "\n\tG37*\n\n".toList) (by decide) rfl (by decide) (by decide) (by simp) ?_
    exact Layout.block (gap := "\n\t".toList) (c := 'G') (body := "37".toList)
      (t := "\n\n".toList) (by decide) rfl (by decide) (by decide) (by simp) (Layout.done (by decide))
  · refine Layout.block (gap := []) (c := 'G') (body := "04 a".toList)
      (t := "\n%MOIN*%G36*G37*".toList) (by decide) rfl (by decide) (by decide)
      (fun _ => ⟨[], '\n', _, rfl, by decide, Or.inl rfl⟩) ?_
    refine Layout.param (gap := "\n".toList) (body := "MOIN*".toList)
      (t := "G36*G37*".toList) (by decide) (by decide) (by decide) ?_
    refine Layout.block (gap := []) (c := 'G') (body := "36".toList)
      (t := "G37*".toList) (by decide) rfl (by decide) (by decide) (by simp) ?_
    exact Layout.block (gap := []) (c := 'G') (body := "37".toList)
      (t := []) (by decide) rfl (by decide) (by decide) (by simp) (Layout.done (by decide))

/-- A macro on one line, on indented lines, and with the closing `%` on a line of its own. -/
example : Layout true false ["%AMAB*1,1,1,0,0*%".toList, "G36*".toList] "%AMAB*1,1,1,0,0*%G36*".toList ∧
    Layout true false ["%AMAB*1,1,1,0,0*%".toList, "G36*".toList]
      "%AMAB*\n  1,1,1,\n  0,0*%G36*".toList ∧
    Layout true false ["%AMAB*1,1,1,0,0*%".toList, "G36*".toList]
      "%AMAB*\n1,1,1,0,0*\n%\nG36*\n".toList ∧
    Settled "%AMAB*1,1,1,0,0*%".toList := by
  refine ⟨?_, ?_, ?_, C92_macro_settled (name := ['A', 'B']) (body := "1,1,1,0,0".toList)
    ⟨'A', 'B', [], rfl, by decide, by decide⟩ (by decide)⟩
  · refine Layout.param (gap := []) (body := "AMAB*1,1,1,0,0*".toList) (t := "G36*".toList)
      (by decide) (by decide) (by decide) ?_
    exact Layout.block (gap := []) (c := 'G') (body := "36".toList)
      (t := []) (by decide) rfl (by decide) (by decide) (by simp) (Layout.done (by decide))
  · refine Layout.broken (gap := []) (text := "AMAB*\n  1,1,1,\n  0,0*".toList) (t := "G36*".toList)
      rfl (by decide) (by decide) (by decide) (by decide) ?_
    exact Layout.block (gap := []) (c := 'G') (body := "36".toList)
      (t := []) (by decide) rfl (by decide) (by decide) (by simp) (Layout.done (by decide))
  · refine Layout.closed (gap := []) (text := "AMAB*\n1,1,1,0,0*\n".toList) (t := "\nG36*\n".toList)
      rfl (by decide) (by decide) (by decide) ⟨'\n', rfl, Or.inl rfl⟩
      ⟨[], '\n', _, rfl, by decide, Or.inl rfl⟩ ?_
    exact Layout.block (gap := "\n".toList) (c := 'G') (body := "36".toList)
      (t := "\n".toList) (by decide) rfl (by decide) (by decide)
      (fun _ => ⟨[], '\n', [], rfl, by decide, Or.inl rfl⟩) (Layout.done (by decide))

end Verif.Gerber
