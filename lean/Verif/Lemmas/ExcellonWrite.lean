import Verif.Lemmas.ExcellonTool
import Verif.Lemmas.ExcellonCount
import Verif.Lemmas.ExcellonUnits

/-! # Lemmas about reading a written drill file -/

namespace Verif.Excellon
open Verif.Py Verif.Py.Re Verif.Cam Verif.Utils Spec
open Verif.Gerber (IsInt IsDec)

/-! ## Lines -/

/-- Lines as text. -/
def unlines (l : List Str) : Str := (l.map (· ++ ['\n'])).flatten

theorem splitOn_unlines : ∀ {l : List Str}, (∀ s ∈ l, '\n' ∉ s) → splitOn '\n' (unlines l) = l ++ [[]]
  | [], _ => rfl
  | s :: l, h => by
    have e : unlines (s :: l) = s ++ '\n' :: unlines l := by simp [unlines]
    rw [e, splitOn_one (h s (by simp)), splitOn_unlines fun t ht => h t (List.mem_cons_of_mem _ ht)]
    rfl

theorem pyLines_unlines {l : List Str} (h : ∀ s ∈ l, '\n' ∉ s) : pyLines (unlines l) = l := by
  unfold pyLines
  rw [splitOn_unlines h]
  simp

theorem unlines_append (a b : List Str) : unlines (a ++ b) = unlines a ++ unlines b := by simp [unlines]

/-! ## Settings -/

/-- Settings of a file can be given to the parser. -/
theorem settings_again {c : CamFile} {st : FileSettings} (h : c.settings = .ok st) :
    (PState.init (some st) []).settings = .ok st := by
  unfold CamFile.settings FileSettings.init at h
  rcases iteOk h with ⟨_, h⟩ | ⟨h1, h⟩
  · cases h
  rcases iteOk h with ⟨_, h⟩ | ⟨h2, h⟩
  · cases h
  simp only [reduceCtorEq, and_true, if_false, checkFormat] at h
  unfold PState.settings FileSettings.init PState.init
  by_cases h3 : c.zeroSuppression ∉ ["leading", "trailing"]
  · rw [if_pos h3] at h
    simp only [List.mem_cons, List.not_mem_nil, or_false, true_or, not_true_eq_false, if_false,
      Except.ok.injEq] at h
    subst h
    simp only [FileSettings.setZeroSuppression]
    rw [if_neg h1, if_neg h2]
    rfl
  · rw [if_neg h3] at h
    simp only [List.mem_cons, List.not_mem_nil, or_false, true_or, not_true_eq_false, if_false,
      Except.ok.injEq] at h
    subst h
    simp only [FileSettings.setZeroSuppression]
    rw [if_neg h1, if_neg h2]
    rw [not_not] at h3
    simp only [List.mem_cons, List.not_mem_nil, or_false] at h3
    rcases h3 with h3 | h3 <;> rw [h3] <;> rfl

/-! ## States while reading -/

variable {D : ℤ → Option ℚ → Prop}

/-- The parser has the settings `st` and no tools from elsewhere; the diameters of the tools are as `D` says. -/
structure Reads (D : ℤ → Option ℚ → Prop) (st : FileSettings) (s : PState) : Prop where
  prev : s.prev = []
  settings : s.settings = .ok st
  absolute : s.notation_ = "absolute"
  tools : Refers s.heap s.tools
  ext : s.ext = []
  comments : s.comments = []
  sized : ∀ t ∈ s.heap, D t.number t.diameter

/-- The holes with the numbers of their tools. -/
def Drilled (s : PState) (l : List (ℤ × (ℚ × ℚ))) : Prop :=
  List.Forall₂ (fun h x => ∃ r, h = Hit.hole (some r) x.2 ∧ (s.heap.map (·.number))[r]? = some x.1) s.hits l

theorem settings_fields {s : PState} {st : FileSettings} (h : s.settings = .ok st) :
    s.notation_ = st.notation_ ∧ s.units = st.units ∧ s.zeros = st.zeros ∧ s.format = [st.format.1, st.format.2] := by
  unfold PState.settings FileSettings.init at h
  rcases iteOk h with ⟨_, h⟩ | ⟨h1, h⟩
  · cases h
  rcases iteOk h with ⟨_, h⟩ | ⟨h2, h⟩
  · cases h
  simp only [reduceCtorEq, and_false, if_false] at h
  by_cases h3 : s.zeros ∉ ["leading", "trailing"]
  · rw [if_pos h3] at h; cases h
  · rw [if_neg h3] at h
    simp only at h
    cases hc : checkFormat s.format with
    | error e => rw [hc] at h; cases h
    | ok f =>
      rw [hc] at h
      simp only [List.mem_cons, List.not_mem_nil, or_false, true_or, not_true_eq_false, if_false,
        Except.ok.injEq] at h
      subst h
      refine ⟨rfl, rfl, rfl, ?_⟩
      unfold checkFormat at hc
      split at hc
      · cases hc; assumption
      · cases hc

theorem settings_congr {s s' : PState} (h1 : s'.notation_ = s.notation_) (h2 : s'.units = s.units)
    (h3 : s'.zeros = s.zeros) (h4 : s'.format = s.format) : s'.settings = s.settings := by
  unfold PState.settings; rw [h1, h2, h3, h4]

/-- Nothing that matters for reading changes. -/
theorem Reads.keep {st : FileSettings} {s s' : PState} (h : Reads D st s) (h0 : s'.prev = s.prev)
    (h1 : s'.notation_ = s.notation_) (h2 : s'.units = s.units) (h3 : s'.zeros = s.zeros)
    (h4 : s'.format = s.format) (h5 : s'.heap.map (fun t => (t.number, t.diameter)) = s.heap.map fun t => (t.number, t.diameter))
    (h6 : s'.tools = s.tools) (h7 : s'.ext = s.ext) (h8 : s'.comments = s.comments) : Reads D st s' := by
  refine ⟨h0.trans h.prev, (settings_congr h1 h2 h3 h4).trans h.settings, h1.trans h.absolute, ?_, h7.trans h.ext,
    h8.trans h.comments, ?_⟩
  · intro x hx
    have e := congrArg (List.map Prod.fst) h5
    simp only [List.map_map, Function.comp_def] at e
    rw [e]; rw [h6] at hx; exact h.tools x hx
  · intro t ht
    have : (t.number, t.diameter) ∈ s.heap.map fun t => (t.number, t.diameter) := by
      rw [← h5]; exact List.mem_map_of_mem ht
    obtain ⟨t', ht', e⟩ := List.mem_map.1 this
    simp only [Prod.mk.injEq] at e
    rw [← e.1, ← e.2]
    exact h.sized t' ht'

/-! ## The header -/

theorem isInfix_iff {a b : Str} : isInfix a b = true ↔ a <:+: b := by
  induction b with
  | nil => simp [isInfix, List.isEmpty_iff]
  | cons c b ih =>
    rw [isInfix, Bool.or_eq_true, ih, List.isPrefixOf_iff_prefix, List.infix_cons_iff]

theorem isInfix_false {a b b' : Str} (h : isInfix a b = false) (hb : b' <:+: b) : isInfix a b' = false := by
  by_contra hc
  have hc : isInfix a b' = true := by simpa using hc
  rw [isInfix_iff.2 ((isInfix_iff.1 hc).trans hb)] at h
  cases h

/-- The statements a header may contain between its first and its last line: tools, and settings
that agree with the settings of the file. -/
def HeaderStmt (heap : List Tool) (st : FileSettings) (x : Stmt) : Prop :=
  match x.kind with
  | .tool r => ∃ t, heap[r]? = some t ∧ GoodTool st.format t
  | .unit z _ => x.units = st.units ∧ z = st.zeros
  | .measuring => x.units = st.units
  | .comment t => '\n' ∉ t ∧ isInfix "FILE_FORMAT".toList t = false ∧ isInfix " Holesize ".toList t = false
  | .version v => v = 1 ∨ v = 2
  | .format v => (v = 1 ∨ v = 2) ∧ st.format = (v.toNat, (6 - v).toNat)
  | .incr m => m = "off"
  | .absMode => True
  | _ => False

/-- The number of the tool defined by a statement. -/
def toolDef (heap : List Tool) (x : Stmt) : List Tool :=
  match x.kind with
  | .tool r => heap[r]?.toList
  | _ => []

/-- What reading a line of the header does, which defines the tools `new`. -/
def ReadLine (D : ℤ → Option ℚ → Prop) (st : FileSettings) (s : PState) (new : List Tool) (t : Str) : Prop :=
  '\n' ∉ t ∧ ∃ s', s.parseLine (strip t) = .ok s' ∧ Reads D st s' ∧ s'.state = s.state ∧ s'.hits = s.hits ∧
    s'.active = s.active ∧ ∀ n ∈ new.map (·.number) ++ s.tools.map (·.1), n ∈ s'.tools.map (·.1)

theorem readLine_const {st : FileSettings} {s : PState} {t : Str} (h : Reads D st s) (ht : t ≠ [])
    (hs : t.all (fun c => !isSpace c) = true) {s' : PState} (hd : s.dispatch t = .ok s') (h' : Reads D st s')
    (h1 : s'.state = s.state) (h2 : s'.hits = s.hits) (h3 : s'.active = s.active)
    {new : List Tool} (h4 : ∀ n ∈ new.map (·.number) ++ s.tools.map (·.1), n ∈ s'.tools.map (·.1)) :
    ReadLine D st s new t := by
  refine ⟨not_mem_of_all hs (by decide), s', ?_, h', h1, h2, h3, h4⟩
  rw [strip_of_no_space hs, parseLine_eq h.prev ht hs, hd]

theorem readLine_setting {st : FileSettings} {s : PState} {t : Str} (h : Reads D st s) (ht : t ≠ [])
    (hs : t.all (fun c => !isSpace c) = true) {s' : PState} (hd : s.dispatch t = .ok s') (h' : Reads D st s')
    (h1 : s'.state = s.state) (h2 : s'.hits = s.hits) (h3 : s'.active = s.active) (h4 : s'.tools = s.tools) :
    ReadLine D st s [] t :=
  readLine_const h ht hs hd h' h1 h2 h3 fun n hn => by rw [h4]; exact hn

theorem segText_no {l : List (Char × Str)} (h : SegOK l) {c : Char} (h1 : isCmd c = false) (h2 : isVal c = false) :
    c ∉ segText l := by
  intro hc
  unfold segText at hc
  rw [List.mem_flatten] at hc
  obtain ⟨w, hw, hc⟩ := hc
  rw [List.mem_map] at hw
  obtain ⟨x, hx, rfl⟩ := hw
  obtain ⟨h3, h4⟩ := h x hx
  rcases List.mem_cons.1 hc with rfl | hc
  · rw [h1] at h3; cases h3
  · rw [List.all_eq_true.1 h4 c hc] at h2; cases h2

theorem isCmd_not_space {c : Char} (h : isCmd c = true) : isSpace c = false := by
  unfold isCmd at h
  simp only [List.contains_eq_mem, List.mem_cons, List.not_mem_nil, or_false, decide_eq_true_eq] at h
  rcases h with rfl | rfl | rfl | rfl | rfl | rfl | rfl <;> decide

theorem isVal_not_space {c : Char} (h : isVal c = true) : isSpace c = false := by
  unfold isVal at h
  simp only [Bool.or_eq_true, beq_iff_eq] at h
  rcases h with h | rfl
  · exact num_not_space h
  · decide

theorem segText_space {l : List (Char × Str)} (h : SegOK l) : (segText l).all (fun c => !isSpace c) = true := by
  rw [List.all_eq_true]
  intro c hc
  unfold segText at hc
  rw [List.mem_flatten] at hc
  obtain ⟨w, hw, hc⟩ := hc
  rw [List.mem_map] at hw
  obtain ⟨x, hx, rfl⟩ := hw
  obtain ⟨h3, h4⟩ := h x hx
  rcases List.mem_cons.1 hc with rfl | hc
  · rw [isCmd_not_space h3]; rfl
  · rw [isVal_not_space (List.all_eq_true.1 h4 c hc)]; rfl

/-- A tool definition is read. -/
theorem readLine_tool {st : FileSettings} {s : PState} (h : Reads D st s) (hh : s.state = "HEADER")
    (hf : GoodFormat st.format) {t : Tool} (ht : GoodTool st.format t) (hD : D t.number t.diameter) :
    ∃ text, t.toExcellon st = .ok text ∧ ReadLine D st s [t] text := by
  obtain ⟨l, h1, h2, h3⟩ := tool_text hf ht s.plated
  have hok : SegOK (('T', fmt02 t.number) :: l) := by
    intro x hx
    rcases List.mem_cons.1 hx with rfl | hx
    · exact ⟨rfl, isInt_val (fmt02_isInt _)⟩
    · exact h1 x hx
  refine ⟨_, h2, ?_⟩
  have e : segText (('T', fmt02 t.number) :: l) = 'T' :: (fmt02 t.number ++ segText l) := by simp [segText]
  have hI : isInfix "INCH".toList (segText (('T', fmt02 t.number) :: l)) = false :=
    isInfix_none (segText_no hok (by decide) (by decide))
  have hM : isInfix "METRIC".toList (segText (('T', fmt02 t.number) :: l)) = false :=
    isInfix_none (segText_no hok (by decide) (by decide))
  have hoff : isInfix ",OFF".toList (segText (('T', fmt02 t.number) :: l)) = false :=
    isInfix_none (segText_no hok (by decide) (by decide))
  have hon : isInfix ",ON".toList (segText (('T', fmt02 t.number) :: l)) = false :=
    isInfix_none (segText_no hok (by decide) (by decide))
  have hspace := segText_space hok
  generalize segText (('T', fmt02 t.number) :: l) = text at *
  subst e
  have hm : ∀ t : Tool, s.mergeProperties t = t := by
    intro t
    unfold PState.mergeProperties
    rw [h.ext]
    simp [dictGet]
  have hd : s.dispatch ('T' :: (fmt02 t.number ++ segText l)) = .ok (PState.add
      { s with heap := s.heap ++ [{ t with settings := some st, plated := s.plated, hitCount := 0 }]
               tools := dictSet s.tools t.number s.heap.length } (.tool s.heap.length)) := by
    rw [dispatch_T hI hM, if_pos hh]
    unfold PState.defineTool
    rw [hoff, hon]
    simp only [Bool.not_false, Bool.and_self, if_true, h.settings, bind, Except.bind, h3, hm]
  refine readLine_const h (by simp) hspace hd ?_ rfl rfl rfl ?_
  · refine ⟨h.prev, (settings_congr rfl rfl rfl rfl).trans h.settings, h.absolute, ?_, h.ext, h.comments, ?_⟩
    · exact (h.tools.grow _).set (by simp)
    · intro t' ht'
      rcases List.mem_append.1 ht' with ht' | ht'
      · exact h.sized t' ht'
      · rw [List.mem_singleton.1 ht']; exact hD
  · intro n hn
    simp only [List.map_cons, List.map_nil, List.singleton_append, List.mem_cons] at hn
    show n ∈ (dictSet s.tools t.number s.heap.length).map (·.1)
    rw [dictSet_keys]
    rcases hn with rfl | hn
    · split <;> simp_all
    · split <;> simp_all

theorem rstripBy_cons {p : Char → Bool} {c : Char} (hc : p c = false) (t : Str) :
    rstripBy p (c :: t) = c :: rstripBy p t := by
  have h := rstripBy_append p [c] t
  rw [List.singleton_append] at h
  rw [h]
  have e : rstripBy p [c] = [c] := by simp [rstripBy, hc]
  split
  · rename_i h'; rw [h', e]
  · rfl

theorem rstripBy_idem (p : Char → Bool) (t : Str) : rstripBy p (rstripBy p t) = rstripBy p t := by
  unfold rstripBy
  rw [List.reverse_reverse]
  congr 1
  induction t.reverse with
  | nil => rfl
  | cons c l ih =>
    by_cases hc : p c = true
    · rw [List.dropWhile_cons_of_pos hc, ih]
    · rw [List.dropWhile_cons_of_neg hc, List.dropWhile_cons_of_neg hc]

theorem rstripBy_prefix (p : Char → Bool) (t : Str) : rstripBy p t <+: t := by
  unfold rstripBy
  rw [← List.reverse_suffix, List.reverse_reverse]
  exact List.dropWhile_suffix _

/-- A comment is read. -/
theorem readLine_comment {st : FileSettings} {s : PState} (h : Reads D st s) (hh : s.state = "HEADER") {t : Str}
    (h0 : '\n' ∉ t) (h1 : isInfix "FILE_FORMAT".toList t = false) (h2 : isInfix " Holesize ".toList t = false) :
    ReadLine D st s [] (';' :: t) := by
  refine ⟨?_, ?_⟩
  · simp [h0]
  have e : ∃ t', strip (';' :: t) = ';' :: t' ∧ t' <:+: t ∧ strip (';' :: t') = ';' :: t' := by
    have k : ∀ u, strip (';' :: u) = ';' :: rstripBy isSpace u := by
      intro u
      unfold strip stripBy lstripBy
      rw [List.dropWhile_cons_of_neg (by decide), rstripBy_cons (by decide)]
    exact ⟨_, k t, (rstripBy_prefix _ _).isInfix, by rw [k, rstripBy_idem]⟩
  obtain ⟨t', e1, e2, e3⟩ := e
  rw [e1]
  have hne : strip (';' :: t') ≠ [] := by rw [e3]; simp
  have hp : s.parseLine (';' :: t') = s.commentLine (';' :: t') := by
    unfold PState.parseLine
    have e : ({ s with prev := [] } : PState) = s := by rw [← h.prev]
    simp only [h.prev, List.nil_append, e, if_neg hne]
    rfl
  have e4 : lstripBy (· == ';') (';' :: t') <:+: t := by
    unfold lstripBy
    rw [List.dropWhile_cons_of_pos rfl]
    exact (List.dropWhile_suffix _).isInfix.trans e2
  have k1 := isInfix_false h1 e4
  have k2 := isInfix_false h2 e4
  rw [hp]
  unfold PState.commentLine PState.commentLineFormat
  simp only [k1, k2, Bool.false_eq_true, if_false, bind, Except.bind]
  refine ⟨_, rfl, ?_, ?_, rfl, rfl, fun n hn => hn⟩
  · exact h.keep rfl rfl rfl rfl rfl rfl rfl rfl rfl
  · simp only [PState.commentLinePlating, PState.add, hh, ite_self]

/-- A line of the header is read. -/
theorem readLine_header {st : FileSettings} {s : PState} (h : Reads D st s) (hh : s.state = "HEADER")
    (hf : GoodFormat st.format) (hu : st.units = "inch" ∨ st.units = "metric")
    (hz : st.zeros = "leading" ∨ st.zeros = "trailing") {heap : List Tool} {x : Stmt} (hx : HeaderStmt heap st x)
    (hD : ∀ t ∈ toolDef heap x, D t.number t.diameter) :
    ∃ text, x.toExcellon (fun r => heap[r]?) st = .ok text ∧ ReadLine D st s (toolDef heap x) text := by
  obtain ⟨u, k⟩ := x
  obtain ⟨f1, f2, f3, f4⟩ := settings_fields h.settings
  unfold HeaderStmt at hx
  cases k with
  | tool r =>
    obtain ⟨t, h1, h2⟩ := hx
    have e : toolDef heap ⟨u, .tool r⟩ = [t] := by simp [toolDef, h1]
    obtain ⟨text, h3, h4⟩ := readLine_tool h hh hf h2 (hD t (by simp [e]))
    exact ⟨text, by simp only [Stmt.toExcellon, h1, h3], by rw [e]; exact h4⟩
  | comment t => exact ⟨_, rfl, readLine_comment h hh hx.1 hx.2.1 hx.2.2⟩
  | unit z fm =>
    obtain ⟨rfl, rfl⟩ : u = st.units ∧ z = st.zeros := hx
    have key : ∀ (u z : String) (line : Str), st.units = u → st.zeros = z → line ≠ [] →
        line.all (fun c => !isSpace c) = true → s.dispatch line = .ok { s with
          units := u
          zeros := z
          statements := s.statements ++ [⟨u, .unit z none⟩] } → ReadLine D st s [] line := by
      intro u z line hu hz h1 h2 h3
      refine readLine_const h h1 h2 h3 ?_ rfl rfl rfl fun n hn => hn
      exact h.keep rfl rfl (hu.symm.trans f2.symm) (hz.symm.trans f3.symm) rfl rfl rfl rfl rfl
    rcases hu with hu | hu <;> rcases hz with hz | hz <;> simp only [hu, hz]
    · exact ⟨"INCH,LZ".toList, rfl, key _ _ _ hu hz (by decide) (by decide) rfl⟩
    · exact ⟨"INCH,TZ".toList, rfl, key _ _ _ hu hz (by decide) (by decide) rfl⟩
    · exact ⟨"METRIC,LZ".toList, rfl, key _ _ _ hu hz (by decide) (by decide) rfl⟩
    · exact ⟨"METRIC,TZ".toList, rfl, key _ _ _ hu hz (by decide) (by decide) rfl⟩
  | measuring =>
    obtain rfl : u = st.units := hx
    have key : ∀ (u : String) (line : Str), st.units = u → line ≠ [] →
        line.all (fun c => !isSpace c) = true → s.dispatch line = .ok { s with
          units := u
          statements := s.statements ++ [⟨u, .measuring⟩] } → ReadLine D st s [] line := by
      intro u line hu h1 h2 h3
      refine readLine_const h h1 h2 h3 ?_ rfl rfl rfl fun n hn => hn
      exact h.keep rfl rfl (hu.symm.trans f2.symm) rfl rfl rfl rfl rfl rfl
    rcases hu with hu | hu <;> simp only [hu] <;>
      exact ⟨_, rfl, key _ _ hu (by decide) (by decide) rfl⟩
  | version v =>
    rcases hx with rfl | rfl <;>
      exact ⟨_, rfl, readLine_setting h (by decide) (by decide) rfl (h.keep rfl rfl rfl rfl rfl rfl rfl rfl rfl) rfl rfl rfl rfl⟩
  | format v =>
    obtain ⟨hv, he⟩ := hx
    rcases hv with rfl | rfl <;>
      exact ⟨_, rfl, readLine_setting h (by decide) (by decide) rfl
        (h.keep rfl rfl rfl rfl (by rw [f4, he]; rfl) rfl rfl rfl rfl) rfl rfl rfl rfl⟩
  | incr m =>
    obtain rfl : m = "off" := hx
    exact ⟨_, rfl, readLine_setting h (by decide) (by decide) rfl
        (h.keep rfl h.absolute.symm rfl rfl rfl rfl rfl rfl rfl) rfl rfl rfl rfl⟩
  | absMode =>
    exact ⟨_, rfl, readLine_setting h (by decide) (by decide) rfl
        (h.keep rfl h.absolute.symm rfl rfl rfl rfl rfl rfl rfl) rfl rfl rfl rfl⟩
  | _ => exact hx.elim

theorem run_cons (s : PState) (t : Str) (l : List Str) :
    s.run (t :: l) = s.parseLine (strip t) >>= fun s => s.run l := by
  unfold PState.run; rw [List.foldlM_cons]

theorem run_append (s : PState) (a b : List Str) : s.run (a ++ b) = s.run a >>= fun s => s.run b := by
  unfold PState.run; rw [List.foldlM_append]

/-- The lines of the header are read. -/
theorem header_run {st : FileSettings} (hf : GoodFormat st.format) (hu : st.units = "inch" ∨ st.units = "metric")
    (hz : st.zeros = "leading" ∨ st.zeros = "trailing") {heap : List Tool} :
    ∀ {l : List Stmt} {s : PState}, Reads D st s → s.state = "HEADER" → (∀ x ∈ l, HeaderStmt heap st x) →
    (∀ x ∈ l, ∀ t ∈ toolDef heap x, D t.number t.diameter) →
    ∃ ts, (l.mapM fun x => (x.toExcellon (fun r => heap[r]?) st).map (· ++ ['\n'])) = .ok (ts.map (· ++ ['\n'])) ∧
      (∀ t ∈ ts, '\n' ∉ t) ∧ ∃ s', s.run ts = .ok s' ∧ Reads D st s' ∧ s'.state = "HEADER" ∧ s'.hits = s.hits ∧
        s'.active = s.active ∧
        ∀ n ∈ (l.flatMap (toolDef heap)).map (·.number) ++ s.tools.map (·.1), n ∈ s'.tools.map (·.1)
  | [], s, h, hh, _, _ => ⟨[], rfl, by simp, s, rfl, h, hh, rfl, rfl, fun n hn => hn⟩
  | x :: l, s, h, hh, hx, hD => by
    obtain ⟨t, h1, h2, s1, h3, h4, h5, h6, h7, h8⟩ := readLine_header h hh hf hu hz (hx x (by simp)) (hD x (by simp))
    obtain ⟨ts, k1, k2, s2, k3, k4, k5, k6, k7, k8⟩ := header_run hf hu hz (l := l) h4 (h5.trans hh)
      (fun y hy => hx y (List.mem_cons_of_mem _ hy)) fun y hy => hD y (List.mem_cons_of_mem _ hy)
    refine ⟨t :: ts, ?_, ?_, s2, ?_, k4, k5, k6.trans h6, k7.trans h7, ?_⟩
    rotate_right
    · intro n hn
      rw [List.flatMap_cons, List.map_append, List.append_assoc] at hn
      rcases List.mem_append.1 hn with hn | hn
      · exact k8 n (List.mem_append_right _ (h8 n (List.mem_append_left _ hn)))
      rcases List.mem_append.1 hn with hn | hn
      · exact k8 n (List.mem_append_left _ hn)
      · exact k8 n (List.mem_append_right _ (h8 n (List.mem_append_right _ hn)))
    · rw [List.mapM_cons, h1, k1]; rfl
    · intro y hy
      rcases List.mem_cons.1 hy with rfl | hy
      · exact h2
      · exact k2 y hy
    · rw [run_cons, h3]; exact k3

/-! ## The body -/

/-- The positions of the holes of tool `n`. -/
def holesAt (heap : List Tool) (n : ℤ) (hits : List Hit) : List (ℚ × ℚ) :=
  hits.filterMap fun h => match h with
    | .hole t p => if (t.bind fun r => heap[r]?).map (·.number) = some n then some p else none
    | .slot _ _ _ _ => none

/-- A hole made with some tool, at a position on the grid. -/
def GoodHole (heap : List Tool) (f : ℕ × ℕ) (h : Hit) : Prop :=
  ∃ r p, h = .hole (some r) p ∧ r < heap.length ∧ OnGrid f p.1 ∧ OnGrid f p.2

/-- The machine is drilling with tool number `n`. -/
structure Drilling (D : ℤ → Option ℚ → Prop) (st : FileSettings) (n : ℤ) (l : List (ℤ × (ℚ × ℚ))) (s : PState) : Prop where
  reads : Reads D st s
  state : s.state = "DRILL"
  active : ∃ r, s.active = some r ∧ (s.heap.map (·.number))[r]? = some n
  drilled : Drilled s l
  table : ∀ n, ¬ D n (some (defaultDiameter st.units n)) → n ∈ s.tools.map (·.1)

theorem Drilled.keep {s s' : PState} {l : List (ℤ × (ℚ × ℚ))} (h : Drilled s l) (h1 : s'.hits = s.hits)
    (h2 : s.heap.map (·.number) <+: s'.heap.map (·.number)) : Drilled s' l := by
  unfold Drilled
  rw [h1]
  refine List.Forall₂.imp (fun x y ⟨r, e, h3⟩ => ⟨r, e, ?_⟩) h
  obtain ⟨t, ht⟩ := h2
  rw [← ht, List.getElem?_append_left]
  · exact h3
  · exact (List.getElem?_eq_some_iff.1 h3).1

theorem Refers.keep {heap heap' : List Tool} {d : List (ℤ × ℕ)} (h : Refers heap d)
    (h' : heap'.map (·.number) = heap.map (·.number)) : Refers heap' d := by
  intro x hx; rw [h']; exact h x hx

/-- One hole is read. -/
theorem hole_line {st : FileSettings} (hf : GoodFormat st.format) {n : ℤ} {l : List (ℤ × (ℚ × ℚ))} {p : ℚ × ℚ}
    (h1 : OnGrid st.format p.1) (h2 : OnGrid st.format p.2) (tools : ℕ → Option Tool) :
    ∃ t, Stmt.toExcellon tools st ⟨"inch", .coord (some p.1) (some p.2) none⟩ = .ok t ∧ '\n' ∉ t ∧
      ∀ s, Drilling D st n l s → ∃ s', s.parseLine (strip t) = .ok s' ∧ Drilling D st n (l ++ [(n, p)]) s' := by
  obtain ⟨t, k1, k2, wx, wy, rfl, k4, k5, k6, k7⟩ := coord_roundtrip hf (x := some p.1) (y := some p.2)
    (fun v hv => by cases hv; exact h1) (fun v hv => by cases hv; exact h2) (.inl (by simp)) none tools "inch"
  have hall := coordText_all k4 k5
  refine ⟨_, k1, not_mem_of_all hall (by decide), fun s hs => ?_⟩
  obtain ⟨hr, hstate, ⟨r, ha, hn⟩, hd, htab⟩ := hs
  have hsp : (coordText wx wy).all (fun c => !isSpace c) = true :=
    List.all_eq_true.2 fun c hc => by rw [coordCh_not_space (List.all_eq_true.1 hall c hc)]; rfl
  have e : s.parseLine (coordText wx wy) = .ok { s.add (.coord (some p.1) (some p.2) none) with
      pos := move s.notation_ s.pos (some p.1) (some p.2)
      hits := s.hits ++ [.hole (some r) (move s.notation_ s.pos (some p.1) (some p.2))]
      heap := s.heap.modify r fun t => { t with hitCount := t.hitCount + 1 } } := by
    rw [parseLine_coord hr.prev k4 k5 (by rw [k6]; exact .inl rfl)]
    unfold PState.coordLine
    have hd1 : ¬ (s.state = "LINEAR" ∧ s.down = true) := by rw [hstate]; simp
    have hd2 : s.state = "DRILL" ∨ s.state = "HEADER" := .inl hstate
    simp only [hr.settings, k2, PState.needTool, PState.countHit, PState.addHit, PState.add, ha, bind, Except.bind,
      if_neg hd1, if_pos hd2]
  have hmove : move s.notation_ s.pos (some p.1) (some p.2) = p := by
    unfold move; rw [if_pos hr.absolute]
  rw [hmove] at e
  have hnum : (s.heap.modify r fun t => { t with hitCount := t.hitCount + 1 }).map (·.number) =
      s.heap.map (·.number) := map_modify_same Tool.number (fun t : Tool => { t with hitCount := t.hitCount + 1 }) (fun _ => rfl) s.heap r
  have hnum2 : (s.heap.modify r fun t => { t with hitCount := t.hitCount + 1 }).map (fun t => (t.number, t.diameter)) =
      s.heap.map fun t => (t.number, t.diameter) :=
    map_modify_same (fun t : Tool => (t.number, t.diameter)) (fun t : Tool => { t with hitCount := t.hitCount + 1 })
      (fun _ => rfl) s.heap r
  have e' : strip (modePrefix none ++ coordText wx wy) = coordText wx wy := strip_of_no_space hsp
  rw [← e'] at e
  refine ⟨_, e, ?_, ?_, ?_, ?_, htab⟩
  · exact hr.keep rfl rfl rfl rfl rfl hnum2 rfl rfl rfl
  · exact hstate
  · exact ⟨r, ha, by rw [hnum]; exact hn⟩
  · have h3 : Drilled { s with heap := s.heap.modify r fun t => { t with hitCount := t.hitCount + 1 } } l :=
      hd.keep rfl (by rw [hnum])
    exact List.rel_append h3 (.cons ⟨r, rfl, by rw [hnum]; exact hn⟩ .nil)

/-- The holes of a tool are written and read. -/
theorem holes_run {st : FileSettings} (hf : GoodFormat st.format) {heap : List Tool} {n : ℤ} :
    ∀ {hits : List Hit} {l : List (ℤ × (ℚ × ℚ))}, (∀ h ∈ hits, GoodHole heap st.format h) →
    ∃ ls ts, hits.mapM (writeHit heap st n) = .ok ls ∧ ls.flatten = unlines ts ∧ (∀ t ∈ ts, '\n' ∉ t) ∧
      ∀ s, Drilling D st n l s → ∃ s', s.run ts = .ok s' ∧
        Drilling D st n (l ++ (holesAt heap n hits).map fun p => (n, p)) s'
  | [], l, _ => ⟨[], [], rfl, rfl, by simp, fun s hs => ⟨s, rfl, by simpa [holesAt] using hs⟩⟩
  | h :: hits, l, hg => by
    obtain ⟨r, p, rfl, hr, hx, hy⟩ := hg h (by simp)
    have hget : heap[r]? = some heap[r] := List.getElem?_eq_getElem hr
    have hnum : hitNumber heap (.hole (some r) p) = .ok heap[r].number := by
      unfold hitNumber Hit.tool
      simp only [pyIdx_some hget]
      rfl
    by_cases hn : heap[r].number = n
    · obtain ⟨t, a1, a2, a3⟩ := hole_line hf (n := n) (l := l) hx hy (fun r => heap[r]?)
      obtain ⟨ls, ts, b1, b2, b3, b4⟩ := holes_run hf (heap := heap) (n := n) (hits := hits) (l := l ++ [(n, p)])
        fun y hy => hg y (List.mem_cons_of_mem _ hy)
      refine ⟨(t ++ ['\n']) :: ls, t :: ts, ?_, ?_, ?_, ?_⟩
      · rw [List.mapM_cons, b1]
        have : writeHit heap st n (.hole (some r) p) = .ok (t ++ ['\n']) := by
          unfold writeHit
          rw [hnum]
          simp only [bind, Except.bind, if_pos hn, a1]
        rw [this]; rfl
      · rw [List.flatten_cons, b2]; simp [unlines]
      · intro y hy
        rcases List.mem_cons.1 hy with rfl | hy
        · exact a2
        · exact b3 y hy
      · intro s hs
        obtain ⟨s1, c1, c2⟩ := a3 s hs
        obtain ⟨s2, d1, d2⟩ := b4 s1 c2
        refine ⟨s2, by rw [run_cons, c1]; exact d1, ?_⟩
        have e : holesAt heap n (.hole (some r) p :: hits) = p :: holesAt heap n hits := by
          simp [holesAt, hget, hn]
        rw [e, List.map_cons]
        rw [List.append_assoc] at d2
        exact d2
    · obtain ⟨ls, ts, b1, b2, b3, b4⟩ := holes_run hf (heap := heap) (n := n) (hits := hits) (l := l)
        fun y hy => hg y (List.mem_cons_of_mem _ hy)
      refine ⟨[] :: ls, ts, ?_, ?_, b3, ?_⟩
      · rw [List.mapM_cons, b1]
        have : writeHit heap st n (.hole (some r) p) = .ok [] := by
          unfold writeHit
          rw [hnum]
          simp only [bind, Except.bind, if_neg hn]
        rw [this]; rfl
      · rw [List.flatten_cons, b2]; rfl
      · intro s hs
        have e : holesAt heap n (.hole (some r) p :: hits) = holesAt heap n hits := by
          simp [holesAt, hget, hn]
        rw [e]
        exact b4 s hs

/-- Between two tools. -/
structure Between (D : ℤ → Option ℚ → Prop) (st : FileSettings) (l : List (ℤ × (ℚ × ℚ))) (s : PState) : Prop where
  reads : Reads D st s
  state : s.state = "DRILL"
  drilled : Drilled s l
  table : ∀ n, ¬ D n (some (defaultDiameter st.units n)) → n ∈ s.tools.map (·.1)

/-- A tool selection is read. -/
theorem select_line {st : FileSettings} {n : ℕ} (h0 : 0 < n) (h1 : n < 1000) {l : List (ℤ × (ℚ × ℚ))} {s : PState}
    (hs : Between D st l s) : ∃ s', s.parseLine (strip ('T' :: fmt02 n)) = .ok s' ∧ Drilling D st n l s' := by
  obtain ⟨hr, hstate, hd, htab⟩ := hs
  have hval := isInt_val (fmt02_isInt (n : ℤ))
  have hok : SegOK [('T', fmt02 n)] := by
    intro x hx
    obtain rfl := List.mem_singleton.1 hx
    exact ⟨rfl, hval⟩
  have e : segText [('T', fmt02 n)] = 'T' :: fmt02 n := by simp [segText]
  have hsp := segText_space hok
  have hI : isInfix "INCH".toList ('T' :: fmt02 n) = false := by
    rw [← e]; exact isInfix_none (segText_no hok (by decide) (by decide))
  have hM : isInfix "METRIC".toList ('T' :: fmt02 n) = false := by
    rw [← e]; exact isInfix_none (segText_no hok (by decide) (by decide))
  rw [e] at hsp
  rw [strip_of_no_space hsp, parseLine_eq hr.prev (by simp) hsp, dispatch_T hI hM, if_neg (by rw [hstate]; decide)]
  have hsel : toolSelFrom ('T' :: fmt02 n) = .ok (.toolSel n none) := by
    unfold toolSelFrom
    simp only [List.drop_one, List.tail_cons, if_pos (fmt02_length_le h1), pyInt_fmt02]
    rfl
  unfold PState.selectTool
  have hn0 : (n : ℤ) ≠ 0 := by omega
  simp only [hsel, bind, Except.bind, if_neg hn0]
  unfold PState.getTool
  cases hg : dictGet (s.add (.toolSel n none)).tools n with
  | some r =>
    have hmem := hr.tools _ (dictGet_mem hg)
    exact ⟨_, rfl, hr.keep rfl rfl rfl rfl rfl rfl rfl rfl rfl, hstate, ⟨r, rfl, hmem⟩, hd, htab⟩
  | none =>
    have hc : dictGet (s.add (.toolSel n none)).comments (n : ℤ) = none := by
      show dictGet s.comments _ = _; rw [hr.comments]; rfl
    have hx : dictGet (s.add (.toolSel n none)).ext (n : ℤ) = none := by
      show dictGet s.ext _ = _; rw [hr.ext]; rfl
    have hst : (s.add (.toolSel n none)).settings = .ok st := hr.settings
    simp only [hc, hx, hst]
    have hnew : (n : ℤ) ∉ s.tools.map (·.1) := dictGet_none.1 hg
    refine ⟨_, rfl, ?_, hstate, ?_, ?_, ?_⟩
    · refine ⟨hr.prev, hr.settings, hr.absolute, ?_, hr.ext, hr.comments, ?_⟩
      · exact (hr.tools.grow _).set (by simp [PState.add])
      · intro t ht
        rcases List.mem_append.1 ht with ht | ht
        · exact hr.sized t ht
        · rw [List.mem_singleton.1 ht]
          by_contra hc
          exact hnew (htab n hc)
    · exact ⟨s.heap.length, rfl, by simp [PState.add]⟩
    · exact hd.keep rfl (by simp [PState.add])
    · intro m hm
      show m ∈ (dictSet s.tools (n : ℤ) _).map (·.1)
      rw [dictSet_keys, if_neg hnew]
      exact List.mem_append_left _ (htab m hm)

theorem Drilling.between {st : FileSettings} {n : ℤ} {l : List (ℤ × (ℚ × ℚ))} {s : PState}
    (h : Drilling D st n l s) : Between D st l s := ⟨h.reads, h.state, h.drilled, h.table⟩

/-- All tools are written and read. -/
theorem tools_run {st : FileSettings} (hf : GoodFormat st.format) {f : XFile}
    (hg : ∀ h ∈ f.hits, GoodHole f.heap st.format h) :
    ∀ {tools : List (ℤ × ℕ)} {l : List (ℤ × (ℚ × ℚ))}, Refers f.heap tools →
    (∀ x ∈ tools, 0 < x.1 ∧ x.1 < 1000) →
    ∃ ls ts, (tools.mapM fun t => writeTool f st t.2) = .ok ls ∧ ls.flatten = unlines ts ∧ (∀ t ∈ ts, '\n' ∉ t) ∧
      ∀ s, Between D st l s → ∃ s', s.run ts = .ok s' ∧
        Between D st (l ++ tools.flatMap fun x => (holesAt f.heap x.1 f.hits).map fun p => (x.1, p)) s'
  | [], l, _, _ => ⟨[], [], rfl, rfl, by simp, fun s hs => ⟨s, rfl, by simpa using hs⟩⟩
  | (n, r) :: tools, l, hR, hn => by
    obtain ⟨p1, p2⟩ := hn (n, r) (by simp)
    simp only at p1 p2
    obtain ⟨m, rfl⟩ := Int.eq_ofNat_of_zero_le p1.le
    have hnum := hR (↑m, r) (by simp)
    rw [List.getElem?_map, Option.map_eq_some_iff] at hnum
    obtain ⟨t, ht, hnt⟩ := hnum
    simp only at hnt ht
    obtain ⟨ls, ts, b1, b2, b3, b4⟩ := holes_run hf (n := (m : ℤ)) (l := l) hg
    obtain ⟨ls', ts', c1, c2, c3, c4⟩ := tools_run hf hg (tools := tools)
      (l := l ++ (holesAt f.heap m f.hits).map fun p => ((m : ℤ), p))
      (fun x hx => hR x (List.mem_cons_of_mem _ hx)) (fun x hx => hn x (List.mem_cons_of_mem _ hx))
    refine ⟨(('T' :: fmt02 m) ++ ['\n'] ++ ls.flatten) :: ls', ('T' :: fmt02 m) :: (ts ++ ts'), ?_, ?_, ?_, ?_⟩
    · rw [List.mapM_cons, c1]
      have : writeTool f st r = .ok (('T' :: fmt02 m) ++ ['\n'] ++ ls.flatten) := by
        unfold writeTool
        rw [pyIdx_some ht]
        have h1 : Stmt.toExcellon (fun r => f.heap[r]?) st ⟨"inch", .toolSel m none⟩ =
          .ok ('T' :: fmt02 m) := congrArg Except.ok (congrArg _ (List.append_nil _))
        simp only [bind, Except.bind, hnt, h1, b1]
      simp only at this ⊢
      rw [this]; rfl
    · rw [List.flatten_cons, b2, c2]; simp [unlines]
    · intro y hy
      rcases List.mem_cons.1 hy with rfl | hy
      · have := isInt_val (fmt02_isInt (m : ℤ))
        intro hc
        rcases List.mem_cons.1 hc with hc | hc
        · cases hc
        · exact not_mem_of_all this (by decide) hc
      · rcases List.mem_append.1 hy with hy | hy
        · exact b3 y hy
        · exact c3 y hy
    · intro s hs
      obtain ⟨s1, d1, d2⟩ := select_line (by omega : 0 < m) (by omega) hs
      obtain ⟨s2, e1, e2⟩ := b4 s1 d2
      obtain ⟨s3, g1, g2⟩ := c4 s2 e2.between
      refine ⟨s3, ?_, ?_⟩
      · rw [run_cons, d1]
        show s1.run (ts ++ ts') = _
        rw [run_append, e1]
        exact g1
      · rw [List.flatMap_cons, ← List.append_assoc]
        exact g2

end Verif.Excellon
