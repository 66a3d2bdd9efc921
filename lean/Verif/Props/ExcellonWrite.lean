import Verif.Lemmas.ExcellonWrite
import Verif.Props.ExcellonHoles

/-! # C28: a written drill file reads back to the same holes -/

namespace Verif.Excellon
open Verif.Py Verif.Cam Verif.Utils Spec

/-- The positions of the holes a file has for tool number `n`, in order. -/
def XFile.holesOf (f : XFile) (n : ℤ) : List (ℚ × ℚ) :=
  f.hits.filterMap fun h => match h with
    | .hole _ p => if f.numberOf h = some n then some p else none
    | .slot _ _ _ _ => none

/-- The tools defined in the header, that is, before the first selection of a tool. -/
def XFile.defined (f : XFile) : List Tool :=
  (f.statements.takeWhile fun s => !isSelection s).flatMap (toolDef f.heap)

/-- The files of C28: absolute notation; a header from `M48` to `%` or `M95` with tools and settings; tool
numbers from 1 to 999; only holes, each with a tool of the tool table, on the grid. -/
structure Plain (f : XFile) (st : FileSettings) : Prop where
  settings : f.cam.settings = .ok st
  absolute : st.notation_ = "absolute"
  format : GoodFormat st.format
  header : ∃ a mid b, f.statements.takeWhile (fun s => !isSelection s) = a :: (mid ++ [b]) ∧
    a.kind = .headerBegin ∧ (∀ x ∈ mid, HeaderStmt f.heap st x) ∧ (b.kind = .rewindStop ∨ b.kind = .headerEnd)
  numbers : ∀ x ∈ f.tools, 0 < x.1 ∧ x.1 < 1000
  holes : ∀ h ∈ f.hits, ∃ p, (∃ t, h = .hole t p) ∧ OnGrid st.format p.1 ∧ OnGrid st.format p.2
  known : ∀ h ∈ f.hits, ∃ n ∈ f.tools.map (·.1), f.numberOf h = some n

theorem settings_valid {c : CamFile} {st : FileSettings} (h : c.settings = .ok st) :
    (st.units = "inch" ∨ st.units = "metric") ∧ (st.zeros = "leading" ∨ st.zeros = "trailing") := by
  have h' := settings_again h
  unfold PState.settings FileSettings.init at h'
  rcases iteOk h' with ⟨_, h'⟩ | ⟨h1, h'⟩
  · cases h'
  rcases iteOk h' with ⟨_, h'⟩ | ⟨h2, h'⟩
  · cases h'
  simp only [reduceCtorEq, and_false, if_false] at h'
  rw [not_not] at h2
  refine ⟨by simpa [PState.init] using h2, ?_⟩
  by_contra h3
  have h3 : (PState.init (some st) []).zeros ∉ ["leading", "trailing"] := by
    simpa [PState.init] using h3
  rw [if_pos h3] at h'
  cases h'

theorem holesOf_eq (f : XFile) (n : ℤ) : f.holesOf n = holesAt f.heap n f.hits := by
  unfold XFile.holesOf holesAt
  congr 1
  funext h
  cases h <;> rfl

theorem Drilled.holesAt {s : PState} {l : List (ℤ × (ℚ × ℚ))} (h : Drilled s l) (n : ℤ) :
    holesAt s.heap n s.hits = (l.filter fun x => x.1 = n).map (·.2) := by
  unfold Drilled at h
  generalize s.hits = hits at h
  induction h with
  | nil => rfl
  | cons hx _ ih =>
    obtain ⟨r, rfl, hr⟩ := hx
    rw [List.getElem?_map] at hr
    unfold Excellon.holesAt at ih ⊢
    rw [List.filterMap_cons, List.filter_cons]
    simp only [Option.bind_some, hr, Option.some.injEq, decide_eq_true_eq]
    split
    · rename_i hn
      split at hn
      · cases hn
      · rename_i hn'; rw [if_neg hn']; exact ih
    · rename_i hn
      split at hn
      · rename_i hn'; cases hn; rw [if_pos hn', List.map_cons, ← ih]
      · cases hn

theorem Drilled.isHole {s : PState} {l : List (ℤ × (ℚ × ℚ))} (h : Drilled s l) :
    ∀ x ∈ s.hits, ∃ r p t, x = .hole (some r) p ∧ s.heap[r]? = some t := by
  unfold Drilled at h
  generalize s.hits = hits at h
  induction h with
  | nil => intro x hx; cases hx
  | cons hx _ ih =>
    obtain ⟨r, rfl, hr⟩ := hx
    rw [List.getElem?_map, Option.map_eq_some_iff] at hr
    obtain ⟨t, ht, -⟩ := hr
    intro x hx
    rcases List.mem_cons.1 hx with rfl | hx
    · exact ⟨_, _, t, rfl, ht⟩
    · exact ih x hx

theorem filter_sections {g : ℤ → List (ℚ × ℚ)} {n : ℤ} : ∀ {l : List (ℤ × ℕ)}, (l.map (·.1)).Nodup →
    ((l.flatMap fun x => (g x.1).map fun p => (x.1, p)).filter fun x => x.1 = n).map (·.2) =
      if n ∈ l.map (·.1) then g n else []
  | [], _ => rfl
  | (m, r) :: l, h => by
    simp only [List.map_cons, List.nodup_cons] at h
    rw [List.flatMap_cons, List.filter_append, List.map_append, filter_sections h.2]
    by_cases hm : m = n
    · subst hm
      have : m ∉ l.map (·.1) := h.1
      rw [if_neg this, List.append_nil, if_pos (by simp), List.filter_eq_self.2 (by
        intro x hx; obtain ⟨p, _, rfl⟩ := List.mem_map.1 hx; simp)]
      simp
    · have : ((g m).map fun p => (m, p)).filter (fun x => x.1 = n) = [] := by
        rw [List.filter_eq_nil_iff]
        intro x hx
        obtain ⟨p, _, rfl⟩ := List.mem_map.1 hx
        simpa using hm
      simp only
      rw [this, List.map_nil, List.nil_append]
      simp only [List.map_cons, List.mem_cons, Ne.symm hm, false_or]

/-- A file of the described form is written and read again; `D` says which diameters the tools have. -/
theorem write_read_of {D : ℤ → Option ℚ → Prop} {f : XFile}
    {st : FileSettings} (hR : Refers f.heap f.tools) (hk : (f.tools.map (·.1)).Nodup) (hp : Plain f st)
    (hD : ∀ t ∈ f.defined, D t.number t.diameter)
    (hDn : ∀ n, ¬ D n (some (defaultDiameter st.units n)) → n ∈ f.defined.map (·.number)) :
    ∃ text f', f.write = .ok text ∧ parseRaw (some st) [] text = .ok f' ∧
      (∀ n, f'.holesOf n = f.holesOf n) ∧ (∀ x ∈ f'.hits, ∃ r p t, x = .hole (some r) p ∧ f'.heap[r]? = some t) ∧
      ∀ t ∈ f'.heap, D t.number t.diameter := by
  obtain ⟨hu, hz⟩ := settings_valid hp.settings
  obtain ⟨a, mid, b, e, ha, hmid, hb⟩ := hp.header
  have hg : ∀ x ∈ f.hits, GoodHole f.heap st.format x := by
    intro x hx
    obtain ⟨p, ⟨t, rfl⟩, h1, h2⟩ := hp.holes x hx
    obtain ⟨n, _, hn⟩ := hp.known _ hx
    unfold XFile.numberOf Hit.tool at hn
    cases t with
    | none => cases hn
    | some r =>
      refine ⟨r, p, rfl, ?_, h1, h2⟩
      simp only [Option.bind_some, Option.map_eq_some_iff] at hn
      obtain ⟨t, ht, _⟩ := hn
      exact (List.getElem?_eq_some_iff.1 ht).1
  -- the first line
  have hdef : ∀ x ∈ mid, ∀ t ∈ toolDef f.heap x, t ∈ f.defined := by
    intro x hx t ht
    unfold XFile.defined
    rw [e]
    exact List.mem_flatMap.2 ⟨x, by simp [hx], ht⟩
  have hdef' : f.defined = mid.flatMap (toolDef f.heap) := by
    obtain ⟨ua, ka⟩ := a
    obtain ⟨ub, kb⟩ := b
    simp only at ha hb
    subst ha
    unfold XFile.defined
    rw [e, List.flatMap_cons, List.flatMap_append]
    rcases hb with rfl | rfl <;> simp [toolDef]
  have r0 : Reads D st (PState.init (some st) []) :=
    ⟨rfl, settings_again hp.settings, hp.absolute, fun x hx => (by cases hx), rfl, rfl, fun t ht => (by cases ht)⟩
  have r1 : Reads D st { (PState.init (some st) []).add .headerBegin with state := "HEADER" } :=
    r0.keep rfl rfl rfl rfl rfl rfl rfl rfl rfl
  obtain ⟨ts, k1, k2, s2, k3, k4, k5, k6, k7, k8⟩ := header_run hp.format hu hz (heap := f.heap) r1 rfl hmid
    fun x hx t ht => hD t (hdef x hx t ht)
  have htab : ∀ n, ¬ D n (some (defaultDiameter st.units n)) → n ∈ s2.tools.map (·.1) := fun n hn =>
    k8 n (List.mem_append_left _ (by rw [← hdef']; exact hDn n hn))
  -- the last line of the header
  obtain ⟨tb, s3, hb1, hb2, hrew, b3⟩ : ∃ tb s3, b.toExcellon (fun r => f.heap[r]?) st = .ok tb ∧ '\n' ∉ tb ∧
      s2.parseLine (strip tb) = .ok s3 ∧ Between D st [] s3 := by
    have hd : List.Forall₂ (fun h (x : ℤ × (ℚ × ℚ)) => ∃ r, h = Hit.hole (some r) x.2 ∧
        (s2.heap.map (·.number))[r]? = some x.1) s2.hits [] := by rw [k6]; exact .nil
    obtain ⟨ub, kb⟩ := b
    rcases hb with hb | hb
    · simp only at hb
      subst hb
      exact ⟨"%".toList, s2.rewindLine, rfl, by decide, (parseLine_eq k4.prev (by decide) (by decide)).trans rfl,
        k4.keep rfl rfl rfl rfl rfl rfl rfl rfl rfl,
        by unfold PState.rewindLine; simp only [k5, if_true], hd, htab⟩
    · simp only at hb
      subst hb
      exact ⟨"M95".toList, { s2.add .headerEnd with state := if s2.state = "HEADER" then "DRILL" else s2.state }, rfl,
        by decide, (parseLine_eq k4.prev (by decide) (by decide)).trans rfl,
        k4.keep rfl rfl rfl rfl rfl rfl rfl rfl rfl, if_pos k5, hd, htab⟩
  obtain ⟨ls, ts', l1, l2, l3, l4⟩ := tools_run hp.format hg (tools := f.tools) (l := []) hR hp.numbers
  obtain ⟨s4, m1, m2⟩ := l4 _ b3
  rw [List.nil_append] at m2
  -- the file
  have hM48 : (PState.init (some st) []).parseLine (strip "M48".toList) =
      .ok { (PState.init (some st) []).add .headerBegin with state := "HEADER" } :=
    (parseLine_eq rfl (by decide) (by decide)).trans rfl
  have hend : s4.parseLine (strip "M30".toList) = .ok (s4.add (.endProg none none)) := by
    refine (parseLine_eq m2.reads.prev (by decide) (by decide)).trans ?_
    show (s4.settings >>= fun st => endFrom "M30".toList st >>= fun k => Except.ok (s4.add k)) = _
    rw [m2.reads.settings]
    rfl
  have hlines : ∀ t ∈ "M48".toList :: (ts ++ tb :: (ts' ++ ["M30".toList])), '\n' ∉ t := by
    intro t ht
    rcases List.mem_cons.1 ht with rfl | ht
    · decide
    rcases List.mem_append.1 ht with ht | ht
    · exact k2 t ht
    rcases List.mem_cons.1 ht with rfl | ht
    · exact hb2
    rcases List.mem_append.1 ht with ht | ht
    · exact l3 t ht
    · obtain rfl := List.mem_singleton.1 ht
      decide
  have hrun : (PState.init (some st) []).run ("M48".toList :: (ts ++ tb :: (ts' ++ ["M30".toList]))) =
      .ok (s4.add (.endProg none none)) := by
    rw [run_cons, hM48]
    show PState.run _ (ts ++ _) = _
    rw [run_append, k3]
    show PState.run s2 _ = _
    rw [run_cons, hrew]
    show PState.run _ (ts' ++ _) = _
    rw [run_append, m1]
    show PState.run s4 _ = _
    rw [run_cons, hend]
    rfl
  have hset : (s4.add (.endProg none none)).settings = .ok st := m2.reads.settings
  refine ⟨unlines ("M48".toList :: (ts ++ tb :: (ts' ++ ["M30".toList]))),
    ⟨(s4.add (.endProg none none)).statements.map fun x => ⟨s4.units, x.kind⟩, s4.heap, s4.tools, s4.hits,
      CamFile.init (some st)⟩, ?_, ?_, ?_, ?_, m2.reads.sized⟩
  · unfold XFile.write
    rw [hp.settings, e]
    obtain ⟨ua, ka⟩ := a
    simp only at ha
    subst ha
    have hhead : (List.mapM (fun s => (s.toExcellon (fun r => f.heap[r]?) st).map (· ++ ['\n']))
        (⟨ua, .headerBegin⟩ :: (mid ++ [b]))) =
        .ok (("M48".toList ++ ['\n']) :: (ts.map (· ++ ['\n']) ++ [tb ++ ['\n']])) := by
      rw [List.mapM_cons, List.mapM_append, k1, List.mapM_cons, hb1]
      rfl
    simp only [bind, Except.bind] at hhead ⊢
    rw [hhead]
    simp only
    rw [l1]
    simp only
    congr 1
    rw [l2]
    simp [unlines]
  · unfold parseRaw
    rw [pyLines_unlines hlines, hrun]
    show (s4.add _).finish = _
    unfold PState.finish
    rw [hset]
    rfl
  · intro n
    rw [holesOf_eq, holesOf_eq]
    show holesAt s4.heap n s4.hits = _
    rw [m2.drilled.holesAt n, filter_sections (g := fun n => holesAt f.heap n f.hits) hk]
    split
    · rfl
    · rename_i hn
      symm
      rw [← holesOf_eq]
      unfold XFile.holesOf
      rw [List.filterMap_eq_nil_iff]
      intro x hx
      obtain ⟨p, ⟨t, rfl⟩, _⟩ := hp.holes x hx
      obtain ⟨m, hm, hm'⟩ := hp.known _ hx
      simp only [hm', Option.some.injEq]
      rw [if_neg]
      rintro rfl
      exact hn hm
  · intro x hx
    exact m2.drilled.isHole x hx

theorem parsed_tools {settings : Option FileSettings} {ext : List (ℤ × Tool)} {data : Str} {f : XFile}
    (hx : FreshTools ext) (h : parseRaw settings ext data = .ok f) :
    Refers f.heap f.tools ∧ (f.tools.map (·.1)).Nodup := by
  obtain ⟨s0, i1, _, i3, i4, i5⟩ := parseRaw_inv hx h
  exact ⟨by rw [i3, i4]; exact i1.counts.tools, by rw [i4]; exact i1.counts.keys⟩

theorem write_read {D : ℤ → Option ℚ → Prop} {settings : Option FileSettings} {ext : List (ℤ × Tool)} {data : Str} {f : XFile}
    {st : FileSettings} (hx : FreshTools ext) (h : parseRaw settings ext data = .ok f) (hp : Plain f st)
    (hD : ∀ t ∈ f.defined, D t.number t.diameter)
    (hDn : ∀ n, ¬ D n (some (defaultDiameter st.units n)) → n ∈ f.defined.map (·.number)) :
    ∃ text f', f.write = .ok text ∧ parseRaw (some st) [] text = .ok f' ∧
      (∀ n, f'.holesOf n = f.holesOf n) ∧ (∀ x ∈ f'.hits, ∃ r p t, x = .hole (some r) p ∧ f'.heap[r]? = some t) ∧
      ∀ t ∈ f'.heap, D t.number t.diameter := by
  obtain ⟨hR, hk⟩ := parsed_tools hx h
  exact write_read_of hR hk hp hD hDn

/-- **C28.** Every parsed file of the described form can be written, and parsing the text with the
settings of the file gives a file that has, for every tool number, the same holes in the same order. -/
theorem C28_write_read_partial {settings : Option FileSettings} {ext : List (ℤ × Tool)} {data : Str} {f : XFile}
    {st : FileSettings} (hx : FreshTools ext) (h : parseRaw settings ext data = .ok f) (hp : Plain f st) :
    ∃ text f', f.write = .ok text ∧ parseRaw (some st) [] text = .ok f' ∧
      (∀ n, f'.holesOf n = f.holesOf n) ∧ ∀ x ∈ f'.hits, ∃ t p, x = .hole t p := by
  obtain ⟨text, f', h1, h2, h3, h4, -⟩ := write_read (D := fun _ _ => True) hx h hp (fun _ _ => trivial)
    fun n hn => absurd trivial hn
  exact ⟨text, f', h1, h2, h3, fun x hx => by obtain ⟨r, p, _, e, _⟩ := h4 x hx; exact ⟨_, p, e⟩⟩

/-! ## An example -/

/-- A check for `OnGrid`. -/
def onGridB (f : ℕ × ℕ) (v : ℚ) : Bool :=
  decide ((v * 10 ^ f.2).den = 1) && decide ((v * 10 ^ f.2).num.natAbs < 10 ^ (f.1 + f.2))

theorem onGridB_sound {f : ℕ × ℕ} {v : ℚ} (h : onGridB f v = true) : OnGrid f v := by
  unfold onGridB at h
  rw [Bool.and_eq_true, decide_eq_true_eq, decide_eq_true_eq] at h
  refine ⟨(v * 10 ^ f.2).num, ?_, h.2⟩
  rw [Rat.den_eq_one_iff] at h
  rw [h.1]
  field_simp

/-- A check for `OptGrid`. -/
def optGridB (f : ℕ × ℕ) : Option ℚ → Bool
  | none => true
  | some v => onGridB f v

theorem optGridB_sound {f : ℕ × ℕ} {v : Option ℚ} (h : optGridB f v = true) : OptGrid f v := by
  intro x hx
  subst hx
  exact onGridB_sound h

/-- A check for `Short`. -/
def shortB (d : ℕ) (v : ℚ) : Bool :=
  decide ((v * 10 ^ d).den = 1) && decide ((v * 10 ^ d).num.natAbs < 10 ^ 10) &&
    (decide (v = 0) || decide (1 / 10000 ≤ |v|))

theorem shortB_sound {d : ℕ} {v : ℚ} (h : shortB d v = true) : Short d v := by
  unfold shortB at h
  rw [Bool.and_eq_true, Bool.and_eq_true, Bool.or_eq_true] at h
  simp only [decide_eq_true_eq] at h
  obtain ⟨⟨h1, h2⟩, h3⟩ := h
  refine ⟨⟨(v * 10 ^ d).num, ?_, h2⟩, ?_⟩
  · rw [Rat.den_eq_one_iff] at h1
    rw [h1]
    field_simp
  · rcases h3 with h3 | h3
    · exact .inl h3
    · right; norm_num; linarith

/-- A check for `GoodTool`. -/
def goodToolB (f : ℕ × ℕ) (t : Tool) : Bool :=
  optGridB f t.retractRate && optGridB f t.feedRate && optGridB f t.maxHitCount && optGridB f t.depthOffset &&
    (match t.rpm with | none => true | some v => decide (v < 100000) && onGridB f (v / 1000)) &&
    (match t.diameter with | none => true | some v => shortB f.2 v)

theorem goodToolB_sound {f : ℕ × ℕ} {t : Tool} (h : goodToolB f t = true) : GoodTool f t := by
  unfold goodToolB at h
  simp only [Bool.and_eq_true] at h
  obtain ⟨⟨⟨⟨⟨h1, h2⟩, h3⟩, h4⟩, h5⟩, h6⟩ := h
  refine ⟨optGridB_sound h1, optGridB_sound h2, optGridB_sound h3, optGridB_sound h4, ?_, ?_⟩
  · intro v hv
    rw [hv] at h5
    simp only [Bool.and_eq_true, decide_eq_true_eq] at h5
    exact ⟨h5.1, onGridB_sound h5.2⟩
  · intro v hv
    rw [hv] at h6
    exact shortB_sound h6

/-- A check for `HeaderStmt`. -/
def headerB (heap : List Tool) (st : FileSettings) (x : Stmt) : Bool :=
  match x.kind with
  | .tool r => match heap[r]? with | some t => goodToolB st.format t | none => false
  | .unit z _ => decide (x.units = st.units) && decide (z = st.zeros)
  | .comment t => decide ('\n' ∉ t) && !isInfix "FILE_FORMAT".toList t && !isInfix " Holesize ".toList t
  | .absMode => true
  | _ => false

theorem headerB_sound {heap : List Tool} {st : FileSettings} {x : Stmt} (h : headerB heap st x = true) :
    HeaderStmt heap st x := by
  obtain ⟨u, k⟩ := x
  unfold headerB at h
  unfold HeaderStmt
  cases k with
  | tool r =>
    simp only at h ⊢
    cases hr : heap[r]? with
    | none => rw [hr] at h; cases h
    | some t => rw [hr] at h; exact ⟨t, rfl, goodToolB_sound h⟩
  | unit z f => simpa using h
  | comment t => simpa [and_assoc] using h
  | absMode => trivial
  | _ => cases h

/-- A check for `Plain`. -/
def plainB (f : XFile) (st : FileSettings) : Bool :=
  decide (f.cam.settings = .ok st) && decide (st.notation_ = "absolute") &&
  (decide (1 ≤ st.format.1) && decide (st.format.1 ≤ 6) && decide (1 ≤ st.format.2) && decide (st.format.2 ≤ 7)) &&
  (match f.statements.takeWhile (fun s => !isSelection s) with
    | a :: l => match l.reverse with
      | b :: m => decide (a.kind = .headerBegin) && (decide (b.kind = .rewindStop) || decide (b.kind = .headerEnd)) && m.all (headerB f.heap st)
      | [] => false
    | [] => false) &&
  (f.tools.all fun x => decide (0 < x.1) && decide (x.1 < 1000)) &&
  (f.hits.all fun h => match h with
    | .hole _ p => onGridB st.format p.1 && onGridB st.format p.2
    | .slot _ _ _ _ => false) &&
  (f.hits.all fun h => (f.tools.map (·.1)).any fun n => decide (f.numberOf h = some n))

theorem plainB_sound {f : XFile} {st : FileSettings} (h : plainB f st = true) : Plain f st := by
  unfold plainB at h
  simp only [Bool.and_eq_true, decide_eq_true_eq] at h
  obtain ⟨⟨⟨⟨⟨⟨h1, h2⟩, h3⟩, h4⟩, h5⟩, h6⟩, h7⟩ := h
  refine ⟨h1, h2, ⟨h3.1.1.1, h3.1.1.2, h3.1.2, h3.2⟩, ?_, ?_, ?_, ?_⟩
  · cases e : f.statements.takeWhile (fun s => !isSelection s) with
    | nil => rw [e] at h4; cases h4
    | cons a l =>
      rw [e] at h4
      simp only at h4
      cases e' : l.reverse with
      | nil => rw [e'] at h4; cases h4
      | cons b m =>
        rw [e'] at h4
        simp only [Bool.and_eq_true, Bool.or_eq_true, decide_eq_true_eq] at h4
        refine ⟨a, m.reverse, b, ?_, h4.1.1, ?_, h4.1.2⟩
        · rw [← List.reverse_reverse l, e', List.reverse_cons]
        · intro x hx
          exact headerB_sound (List.all_eq_true.1 h4.2 x (List.mem_reverse.1 hx))
  · intro x hx
    simpa using List.all_eq_true.1 h5 x hx
  · intro x hx
    have := List.all_eq_true.1 h6 x hx
    cases x with
    | hole t p =>
      simp only [Bool.and_eq_true] at this
      exact ⟨p, ⟨t, rfl⟩, onGridB_sound this.1, onGridB_sound this.2⟩
    | slot _ _ _ _ => cases this
  · intro x hx
    have := List.all_eq_true.1 h7 x hx
    rw [List.any_eq_true] at this
    obtain ⟨n, h8, h9⟩ := this
    exact ⟨n, h8, by simpa using h9⟩

/-- A drill file with three tools, one of them not used, used in turns. -/
def turns : Str := prog ["M48", ";drilled by hand", "METRIC,LZ", "T01C0.8", "T2F85S30C1.05Z-0.5", "T12", "G90", "%",
  "T02", "X01Y01", "X-015", "T01", "X1Y12", "T2", "Y205", "X015Y-0005", "M30"]

/-- Its settings. -/
def metric24 : FileSettings := ⟨"absolute", "metric", "trailing", "leading", (2, 4), "degrees"⟩

example : (match parseRaw none [] turns with
    | .ok f => plainB f metric24 && decide (f.holesOf 2 = [(1, 1), (-3 / 2, 1), (10, 41 / 2), (3 / 2, -1 / 20)])
    | .error _ => false) = true := by
  decide +kernel

/-! ## Files for which the claim fails -/

/-- The holes of tool 1 before and after writing and reading (with the file's settings). -/
def holesTwice (data : Str) : PyR (List (ℚ × ℚ) × List (ℚ × ℚ)) := do
  let f ← parseRaw none [] data
  let st ← f.cam.settings
  let text ← f.write
  let f' ← parseRaw (some st) [] text
  .ok (f.holesOf 1, f'.holesOf 1)

/-- Without a tool selection everything is taken for the header: the holes are written twice. -/
theorem C28_no_selection_violated :
    holesTwice (prog ["M48", "INCH,LZ", "T01C0.020", "%", "X01Y01", "M30"]) = .ok ([(1, 1)], [(1, 1), (1, 1)]) := by
  decide +kernel

/-- A header without an end: the tool selection is read as a definition, and the holes are written
twice. -/
theorem C28_header_not_ended_violated :
    holesTwice (prog ["M48", "INCH,LZ", "T01C0.020", "T01", "X01Y01", "M30"]) = .ok ([(1, 1)], [(1, 1), (1, 1)]) := by
  decide +kernel

/-- Files with slots cannot be written. -/
theorem C28_slot_violated : ∃ f, parseRaw none [] (prog ["M48", "INCH,LZ", "T01C0.020", "%", "T01", "X01Y01",
    "X01Y01G85X02Y01", "M30"]) = .ok f ∧ f.write = .error .attributeError := by
  have h : (match parseRaw none [] (prog ["M48", "INCH,LZ", "T01C0.020", "%", "T01", "X01Y01",
    "X01Y01G85X02Y01", "M30"]) with
    | .ok f => decide (f.write = .error .attributeError)
    | .error _ => false) = true := by decide +kernel
  revert h
  generalize parseRaw none [] _ = x
  cases x with
  | error e => intro h; cases h
  | ok f => intro h; exact ⟨f, rfl, of_decide_eq_true h⟩

end Verif.Excellon
