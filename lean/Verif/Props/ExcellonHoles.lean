import Verif.Lemmas.ExcellonCount
import Verif.Lemmas.ExcellonText

/-! # C24, C25, C26: holes of a drill file, their tools' counts, repeated holes -/

namespace Verif.Excellon
open Verif.Py Verif.Py.Re Verif.Cam Verif.Utils Spec

/-- Is a file read with these settings incremental at first? -/
def startsIncremental (settings : Option FileSettings) : Bool :=
  match settings with
  | some s => decide (s.notation_ ≠ "absolute")
  | none => false

theorem parseRaw_sim {settings : Option FileSettings} {ext : List (ℤ × Tool)} {data : Str} {f : XFile}
    (h : parseRaw settings ext data = .ok f) :
    ∃ s, Sim (Mach.start (startsIncremental settings)) s ∧
      f.statements.map (·.kind) = s.kinds ∧ f.hits = s.hits := by
  unfold parseRaw at h
  obtain ⟨s, h1, h⟩ := bindOk h
  unfold PState.finish at h
  obtain ⟨st, _, h⟩ := bindOk h
  cases h
  refine ⟨s, ?_, by simp [PState.kinds], rfl⟩
  refine run_invariant (P := Sim _) (fun a b l ha hb => ha.parseLine hb) ?_ h1
  refine ⟨?_, rfl⟩
  cases settings <;> rfl

/-- **C24.** For every text, every settings and every tool table: the holes and slots of the parsed
file are, in order, exactly those a machine makes that executes the statements of the file one after
the other, starting at the origin (`Spec.Mach`: in absolute notation a coordinate replaces the old
one, in incremental notation it is added, an omitted one leaves the axis alone). -/
theorem C24_holes_follow_statements {settings : Option FileSettings} {ext : List (ℤ × Tool)}
    {data : Str} {f : XFile} (h : parseRaw settings ext data = .ok f) :
    f.hits.map Hit.feature =
      (Mach.start (startsIncremental settings)).all (f.statements.map (·.kind)) := by
  obtain ⟨s, h1, h2, h3⟩ := parseRaw_sim h
  rw [h2, h3, h1.all]

theorem lastGiven_cons (d : ℚ) (x : Option ℚ) (l : List (Option ℚ)) :
    lastGiven d (x :: l) = lastGiven (x.getD d) l := by
  unfold lastGiven
  cases x with
  | none => rfl
  | some v =>
    have e : (some v :: l).filterMap id = v :: l.filterMap id := rfl
    rw [e, Option.getD_some]
    cases l.filterMap id with
    | nil => rfl
    | cons a b => simp [List.getLastD]

theorem total_cons (d : ℚ) (x : Option ℚ) (l : List (Option ℚ)) :
    total d (x :: l) = total (d + x.getD 0) l := by
  unfold total
  cases x with
  | none => simp
  | some v => simp [add_assoc]

theorem block_all (m : Mach) (hd : m.phase.drills = true) (g : ℚ → List (Option ℚ) → ℚ)
    (g0 : ∀ d x l, g d (x :: l) = g (axis m.incremental d x) l) (gn : ∀ d, g d [] = d)
    (cs : List (Option ℚ × Option ℚ)) :
    m.all (cs.map fun c => .coord c.1 c.2 none) =
      (List.range cs.length).map fun k => Feature.hole
        (g m.pos.1 ((cs.take (k + 1)).map (·.1)), g m.pos.2 ((cs.take (k + 1)).map (·.2))) := by
  induction cs generalizing m with
  | nil => rfl
  | cons c cs ih =>
    have hl : ¬ (m.phase = .linear ∧ m.down = true) := by
      rintro ⟨a, _⟩; rw [a] at hd; cases hd
    simp only [List.map_cons, Mach.all, Mach.makes, if_neg hl, hd, if_true, List.length_cons,
      List.range_succ_eq_map, List.map_map]
    rw [List.singleton_append]
    refine congrArg₂ List.cons ?_ ?_
    · simp [g0, gn, Mach.goto]
    · have hn : m.next (.coord c.1 c.2 none) = m.goto c.1 c.2 := rfl
      rw [hn, ih (m.goto c.1 c.2) hd g0]
      apply List.map_congr_left
      intro k _
      simp [g0, Mach.goto]

/-- **C24, absolute notation.** In a run of coordinate commands while drilling, the `k`-th hole is at
the last `X` and the last `Y` given up to its command (or at the position before the run if none was
given). -/
theorem C24_absolute {settings : Option FileSettings} {ext : List (ℤ × Tool)} {data : Str} {f : XFile}
    (h : parseRaw settings ext data = .ok f) {pre post : List Kind} {cs : List (Option ℚ × Option ℚ)}
    (hs : f.statements.map (·.kind) = pre ++ (cs.map fun c => .coord c.1 c.2 none) ++ post) {m : Mach}
    (hm : m = (Mach.start (startsIncremental settings)).after pre)
    (hd : m.phase = .drill) (ha : m.incremental = false) :
    f.hits.map Hit.feature = (Mach.start (startsIncremental settings)).all pre ++
      ((List.range cs.length).map fun k => Feature.hole
        (lastGiven m.pos.1 ((cs.take (k + 1)).map (·.1)),
         lastGiven m.pos.2 ((cs.take (k + 1)).map (·.2)))) ++
      (m.after (cs.map fun c => .coord c.1 c.2 none)).all post := by
  rw [C24_holes_follow_statements h, hs, all_append, all_append, after_append, ← hm]
  rw [block_all m (by rw [hd]; rfl) lastGiven ?_ (fun d => rfl)]
  intro d x l
  rw [lastGiven_cons, ha]
  cases x <;> rfl

/-- **C24, incremental notation.** In a run of coordinate commands while drilling, the `k`-th hole is
displaced from the position before the run by the sum of all coordinates given up to its command. -/
theorem C24_incremental {settings : Option FileSettings} {ext : List (ℤ × Tool)} {data : Str}
    {f : XFile} (h : parseRaw settings ext data = .ok f) {pre post : List Kind}
    {cs : List (Option ℚ × Option ℚ)}
    (hs : f.statements.map (·.kind) = pre ++ (cs.map fun c => .coord c.1 c.2 none) ++ post) {m : Mach}
    (hm : m = (Mach.start (startsIncremental settings)).after pre)
    (hd : m.phase = .drill) (ha : m.incremental = true) :
    f.hits.map Hit.feature = (Mach.start (startsIncremental settings)).all pre ++
      ((List.range cs.length).map fun k => Feature.hole
        (total m.pos.1 ((cs.take (k + 1)).map (·.1)),
         total m.pos.2 ((cs.take (k + 1)).map (·.2)))) ++
      (m.after (cs.map fun c => .coord c.1 c.2 none)).all post := by
  rw [C24_holes_follow_statements h, hs, all_append, all_append, after_append, ← hm]
  rw [block_all m (by rw [hd]; rfl) total ?_ (fun d => by simp [total])]
  intro d x l
  rw [total_cons, ha]
  cases x <;> simp [axis]

/-- **C24 for text.** While drilling with tool `r`, the line that stands for the coordinates `x`, `y`
(as many digits as the format has) drills one hole with that tool at the new position. -/
theorem C24_line {s : PState} {st : FileSettings} {r : ℕ} (hp : s.prev = []) (hst : s.settings = .ok st)
    (hs : s.state = "DRILL") (ha : s.active = some r) (hf : GoodFormat st.format) {x y : Option ℚ}
    (hx : OptGrid st.format x) (hy : OptGrid st.format y) (hne : x ≠ none ∨ y ≠ none)
    (tools : ℕ → Option Tool) (u : String) :
    ∃ t s', Stmt.toExcellon tools st ⟨u, .coord x y none⟩ = .ok t ∧ s.parseLine t = .ok s' ∧
      s'.pos = (axis (decide (s.notation_ ≠ "absolute")) s.pos.1 x,
                axis (decide (s.notation_ ≠ "absolute")) s.pos.2 y) ∧
      s'.hits = s.hits ++ [.hole (some r) s'.pos] := by
  obtain ⟨t, h1, h2, wx, wy, rfl, h4, h5, h6, h7⟩ := coord_roundtrip hf hx hy hne none tools u
  have hne' : wx.isSome = true ∨ wy.isSome = true := by
    rw [h6, h7]
    cases x <;> cases y <;> simp at hne ⊢
  have e : s.parseLine (coordText wx wy) = .ok { s.add (.coord x y none) with
      pos := move s.notation_ s.pos x y
      hits := s.hits ++ [.hole (some r) (move s.notation_ s.pos x y)]
      heap := s.heap.modify r fun t => { t with hitCount := t.hitCount + 1 } } := by
    rw [parseLine_coord hp h4 h5 hne']
    unfold PState.coordLine
    have hd1 : ¬ (s.state = "LINEAR" ∧ s.down = true) := by rw [hs]; simp
    have hd2 : s.state = "DRILL" ∨ s.state = "HEADER" := .inl hs
    simp only [hst, h2, PState.needTool, PState.countHit, PState.addHit, PState.add, ha, bind, Except.bind,
      if_neg hd1, if_pos hd2]
  refine ⟨_, _, h1, e, ?_, ?_⟩
  · exact move_axis s x y
  · rfl

/-! ## C25 -/

/-- **C25 (partial).** For every program in which every slot is cut by a `G01` or `G85` command: the
count of each tool of the file is the number of holes and slots made with that tool object.  (Excluded
are slots cut by a bare coordinate after a `G01`; see `C25_bare_cut_violated`.) -/
theorem C25_counts_partial {settings : Option FileSettings} {ext : List (ℤ × Tool)} {data : Str}
    {f : XFile} (hx : FreshTools ext) (h : parseRaw settings ext data = .ok f)
    (hb : (Mach.start (startsIncremental settings)).anyBare (f.statements.map (·.kind)) = false)
    {r : ℕ} {t : Tool} (ht : f.heap[r]? = some t) :
    t.hitCount = f.hits.countP fun h => h.tool = some r := by
  obtain ⟨s, h1, h2, h3, h4, h5⟩ := parseRaw_inv hx h
  have hm : startsIncremental settings = decide ((PState.init settings ext).notation_ ≠ "absolute") := by
    cases settings <;> rfl
  have := h1.counts.eq (by unfold NoBare; rw [← h2, ← hm]; exact hb) r t.hitCount (by
    rw [← h3, List.getElem?_map, ht]; rfl)
  rw [this, ← h5]; rfl

/-- **C25 (partial).** In every program the count never exceeds the number of holes and slots. -/
theorem C25_counts_le_partial {settings : Option FileSettings} {ext : List (ℤ × Tool)} {data : Str}
    {f : XFile} (hx : FreshTools ext) (h : parseRaw settings ext data = .ok f)
    {r : ℕ} {t : Tool} (ht : f.heap[r]? = some t) :
    t.hitCount ≤ f.hits.countP fun h => h.tool = some r := by
  obtain ⟨s, h1, h2, h3, h4, h5⟩ := parseRaw_inv hx h
  have := h1.counts.le r t.hitCount (by rw [← h3, List.getElem?_map, ht]; rfl)
  rw [← h5] at this
  exact this

theorem foldlM_counts {heap : List Tool} (tools d : List (ℤ × ℕ))
    (ht : Refers heap tools) (hn : (tools.map (·.1)).Nodup) (hd : ∀ x ∈ tools, x.1 ∉ d.map (·.1)) :
    tools.foldlM (fun d t => do
      let t ← pyIdx heap t.2
      (.ok (dictSet d t.number t.hitCount) : PyR _)) d =
    .ok (d ++ tools.map fun x => (x.1, ((heap[x.2]?).map (·.hitCount)).getD 0)) := by
  induction tools generalizing d with
  | nil => simp; rfl
  | cons x l ih =>
    simp only [List.map_cons, List.nodup_cons] at hn
    have hx := ht x List.mem_cons_self
    rw [List.getElem?_map, Option.map_eq_some_iff] at hx
    obtain ⟨t, h1, h2⟩ := hx
    have hnew : t.number ∉ d.map (·.1) := by rw [h2]; exact hd x List.mem_cons_self
    rw [List.foldlM_cons]
    have : (do
        let t ← pyIdx heap x.2
        (.ok (dictSet d t.number t.hitCount) : PyR _)) = .ok (d ++ [(x.1, t.hitCount)]) := by
      unfold pyIdx
      rw [h1]
      show (Except.ok _ : PyR _) = _
      rw [dictSet_new hnew, h2]
    rw [this]
    refine (ih (d ++ [(x.1, t.hitCount)]) (fun y hy => ht y (List.mem_cons_of_mem _ hy)) hn.2 ?_).trans ?_
    · intro y hy hc
      rw [List.map_append, List.mem_append] at hc
      rcases hc with hc | hc
      · exact hd y (List.mem_cons_of_mem _ hy) hc
      · simp only [List.map_cons, List.map_nil, List.mem_singleton] at hc
        exact hn.1 (hc ▸ List.mem_map_of_mem (f := (·.1)) hy)
    · simp [h1]

/-- The number of the tool a hit was made with. -/
def XFile.numberOf (f : XFile) (h : Hit) : Option ℤ :=
  (h.tool.bind fun r => f.heap[r]?).map (·.number)

/-- **C25 (partial): what `hit_count` reports.** For every program in which every slot is cut by a `G01`
or `G85` command, `hit_count(n)` for a tool number of the file is the number of hits made with a tool
of that number, provided that every hit was made with a tool that is still in the tool table (no tool
number was defined again after use; see `C25_redefined_violated`). -/
theorem C25_hit_count_partial {settings : Option FileSettings} {ext : List (ℤ × Tool)} {data : Str}
    {f : XFile} (hx : FreshTools ext) (h : parseRaw settings ext data = .ok f)
    (hb : (Mach.start (startsIncremental settings)).anyBare (f.statements.map (·.kind)) = false)
    (hu : ∀ x ∈ f.hits, ∃ r, x.tool = some r ∧ r ∈ f.tools.map (·.2))
    {n : ℤ} (hn : n ∈ f.tools.map (·.1)) :
    f.hitCount n = .ok (some (f.hits.countP fun x => f.numberOf x = some n)) := by
  obtain ⟨s, h1, h2, h3, h4, h5⟩ := parseRaw_inv hx h
  have hR : Refers f.heap f.tools := by rw [h3, h4]; exact h1.counts.tools
  have hk : (f.tools.map (·.1)).Nodup := by rw [h4]; exact h1.counts.keys
  obtain ⟨⟨n', r⟩, hmem, rfl⟩ := List.mem_map.1 hn
  have hr := hR _ hmem
  rw [List.getElem?_map, Option.map_eq_some_iff] at hr
  obtain ⟨t, ht, hnum⟩ := hr
  unfold XFile.hitCount XFile.hitCounts
  rw [foldlM_counts f.tools [] hR hk (by simp)]
  have hget : dictGet ([] ++ f.tools.map fun x => (x.1, ((f.heap[x.2]?).map (·.hitCount)).getD 0)) n' =
      some t.hitCount := by
    rw [List.nil_append]
    refine dictGet_of_mem ?_ ?_
    · rw [List.map_map]; exact hk
    · refine List.mem_map.2 ⟨(n', r), hmem, ?_⟩
      simp [ht]
  refine (congrArg Except.ok hget).trans ?_
  rw [C25_counts_partial hx h hb ht]
  congr 2
  refine List.countP_congr ?_
  intro x hxm
  simp only [decide_eq_true_eq]
  constructor
  · intro hxt
    unfold XFile.numberOf
    rw [hxt]
    simpa [ht] using hnum
  · intro h0
    obtain ⟨r', h6, h10⟩ := hu x hxm
    unfold XFile.numberOf at h0
    rw [h6, Option.bind_some, Option.map_eq_some_iff] at h0
    obtain ⟨t', h7, h8⟩ := h0
    obtain ⟨⟨n'', r2⟩, hmem2, hr2⟩ := List.mem_map.1 h10
    simp only at hr2
    subst hr2
    have h11 := hR _ hmem2
    rw [List.getElem?_map, h7] at h11
    simp only [Option.map_some, Option.some.injEq] at h11
    have h12 : n'' = n' := by rw [← h11, h8]
    subst h12
    have e1 := dictGet_of_mem hk hmem
    have e2 := dictGet_of_mem hk hmem2
    rw [e1] at e2
    cases e2
    exact h6

/-! ## C26 -/

/-- **C26 (partial), any text.** Outside of the header, with tool `r` active: a line that is read as
"repeat `n` times at distance `(dx, dy)`" adds exactly `n` holes with that tool, the `k`-th (from 1)
displaced by `k (dx, dy)` from the position before, leaves the position at the last of them, counts
`n` hits and changes no other tool.  An omitted step is zero.  Missing are the header, where the
command is ignored, and the case without tool, where it raises an exception. -/
theorem C26_repeat_line_partial {s : PState} {st : FileSettings} {r : ℕ} {t : Str} (hp : s.prev = [])
    (hst : s.settings = .ok st) (hs : s.state ≠ "HEADER") (ha : s.active = some r)
    (hsp : ('R' :: t).all (fun c => !isSpace c) = true)
    (hI : isInfix "INCH".toList ('R' :: t) = false) (hM : isInfix "METRIC".toList ('R' :: t) = false)
    {n : ℕ} {dx dy : Option ℚ} (h : repFrom ('R' :: t) st = .ok (.rep n dx dy)) :
    ∃ s', s.parseLine ('R' :: t) = .ok s' ∧
      s'.hits = s.hits ++ (List.range n).map (fun k : ℕ => .hole (some r)
        (s.pos.1 + ((k : ℚ) + 1) * dx.getD 0, s.pos.2 + ((k : ℚ) + 1) * dy.getD 0)) ∧
      s'.pos = (s.pos.1 + n * dx.getD 0, s.pos.2 + n * dy.getD 0) ∧
      s'.active = some r ∧
      (s'.heap[r]?).map (·.hitCount) = (s.heap[r]?).map (fun t => t.hitCount + n) ∧
      ∀ r', r' ≠ r → s'.heap[r']? = s.heap[r']? := by
  have e : s.parseLine ('R' :: t) = .ok { s.add (.rep n dx dy) with
      pos := (s.pos.1 + (n : ℕ) * dx.getD 0, s.pos.2 + (n : ℕ) * dy.getD 0)
      hits := s.hits ++ (row s.pos (dx.getD 0) (dy.getD 0) n).map (Hit.hole (some r))
      heap := s.heap.modify r fun t => { t with hitCount := t.hitCount + n } } := by
    rw [parseLine_eq hp (by simp) hsp, dispatch_R hs hI hM]
    unfold PState.repeatLine
    rw [hst]
    show (repFrom ('R' :: t) st >>= _) = _
    rw [h]
    show PState.repeatHole _ _ _ _ = _
    rw [Int.toNat_natCast, repeatHole_spec n (s.add (.rep n dx dy)) (r := r) ha]
    rfl
  refine ⟨_, e, ?_, rfl, ha, ?_, ?_⟩
  · simp only [row, List.map_map]; rfl
  · simp [Function.comp_def]
  · intro r' hr'
    simp [Ne.symm hr']

/-- **C26 (partial).** The same for the text that stands for the command: for every count and every
pair of steps on the grid of the format. -/
theorem C26_repeat_partial {s : PState} {st : FileSettings} {r : ℕ} (hp : s.prev = [])
    (hst : s.settings = .ok st) (hs : s.state ≠ "HEADER") (ha : s.active = some r)
    (hf : GoodFormat st.format) (n : ℕ) {dx dy : Option ℚ} (hx : OptGrid st.format dx)
    (hy : OptGrid st.format dy) (nx : dx ≠ some 0) (ny : dy ≠ some 0) (tools : ℕ → Option Tool)
    (u : String) :
    ∃ t s', Stmt.toExcellon tools st ⟨u, .rep n dx dy⟩ = .ok t ∧ s.parseLine t = .ok s' ∧
      s'.hits = s.hits ++ (List.range n).map (fun k : ℕ => .hole (some r)
        (s.pos.1 + ((k : ℚ) + 1) * dx.getD 0, s.pos.2 + ((k : ℚ) + 1) * dy.getD 0)) ∧
      s'.pos = (s.pos.1 + n * dx.getD 0, s.pos.2 + n * dy.getD 0) ∧
      s'.active = some r ∧
      (s'.heap[r]?).map (·.hitCount) = (s.heap[r]?).map (fun t => t.hitCount + n) ∧
      ∀ r', r' ≠ r → s'.heap[r']? = s.heap[r']? := by
  obtain ⟨wx, wy, h1, h2, h3, h4⟩ := repeat_roundtrip hf n hx hy nx ny tools u
  set t := natStr n ++ (coordText wx none ++ coordText none wy) with ht
  have hall : ('R' :: t).all (fun c => isCoordCh c || c == 'R') = true := by
    have a1 : ∀ c, isCoordCh c = true → (isCoordCh c || c == 'R') = true := fun c hc => by simp [hc]
    have b1 := all_mono (coordText_all h1 (wy := none) (fun _ h => by cases h)) a1
    have b2 := all_mono (coordText_all (wx := none) (fun _ h => by cases h) h2) a1
    have b3 := all_mono (natStr_all n) (q := fun c => isCoordCh c || c == 'R')
      (fun c hc => by simp [isCoordCh, isNum, hc])
    rw [ht, List.all_cons, List.all_append, List.all_append, b1, b2, b3]
    decide
  have hI : isInfix "INCH".toList ('R' :: t) = false := isInfix_none (not_mem_of_all hall (by decide))
  have hM : isInfix "METRIC".toList ('R' :: t) = false := isInfix_none (not_mem_of_all hall (by decide))
  have hsp : ('R' :: t).all (fun c => !isSpace c) = true := by
    refine all_mono hall ?_
    intro c hc
    simp only [Bool.or_eq_true, beq_iff_eq] at hc
    rcases hc with hc | rfl
    · rw [coordCh_not_space hc]; rfl
    · decide
  obtain ⟨s', h5⟩ := C26_repeat_line_partial hp hst hs ha hsp hI hM h4
  exact ⟨_, s', h3, h5⟩

/-! ## Examples and violations -/

/-- Lines of a program. -/
def prog (l : List String) : Str := (l.map fun s => s.toList ++ ['\n']).flatten

/-- The holes and slots of a program read without settings. -/
def madeBy (l : List String) : Option (List Hit) :=
  match parseRaw none [] (prog l) with
  | .ok f => some f.hits
  | .error _ => none

-- C24: absolute, then incremental; omitted axes
example : madeBy ["M48", "INCH,LZ", "T01C0.020", "%", "T01", "X01Y02", "Y03", "ICI,ON", "X01", "X01Y01", "M30"] =
    some [.hole (some 0) (1, 2), .hole (some 0) (1, 3), .hole (some 0) (2, 3), .hole (some 0) (3, 4)] := by
  decide +kernel

/-- The state reached by a program. -/
def stateOf (l : List String) : Option PState :=
  match (PState.init none []).run (pyLines (prog l)) with
  | .ok s => some s
  | .error _ => none

-- the hypotheses of C24_line and C26_repeat_partial
example : ∃ s, stateOf ["M48", "INCH,LZ", "T01C0.020", "%", "T01", "X01Y02"] = some s ∧ s.prev = [] ∧
    s.state = "DRILL" ∧ s.active = some 0 ∧ (∃ st, s.settings = .ok st ∧ GoodFormat st.format ∧
      OptGrid st.format (some (1 / 4)) ∧ OptGrid st.format none) :=
  ⟨_, rfl, rfl, rfl, rfl, _, rfl, by unfold GoodFormat; decide +kernel, fun x hx => ⟨2500, by cases hx; norm_num, by decide⟩,
    fun x hx => by cases hx⟩

-- C26
example : madeBy ["M48", "T01C0.020", "%", "T01", "X01Y02", "R3X1.5", "M30"] =
    some [.hole (some 0) (1, 2), .hole (some 0) (5 / 2, 2), .hole (some 0) (4, 2),
      .hole (some 0) (11 / 2, 2)] := by
  decide +kernel

/-- A slot in incremental notation is not placed relative to the position: a finding beside C24, whose
claim is about holes. -/
theorem C24_slot_in_incremental_notation :
    madeBy ["M48", "INCH,LZ", "T01C0.020", "%", "T01", "ICI,ON", "X01Y01", "X01Y00G85X01Y00", "M30"] =
      some [.hole (some 0) (1, 1), .slot (some 0) (some 1, some 0) (some 1, some 0) true] := by
  decide +kernel

/-- **C25 fails** for a slot cut by a coordinate without `G01`: two slots are made, one is counted. -/
theorem C25_bare_cut_violated : ∃ f, parseRaw none [] (prog ["M48", "INCH,LZ", "T01C0.020", "%", "T01",
      "G00X00Y00", "M15", "G01X01Y00", "X02Y00", "M16", "M30"]) = .ok f ∧
    f.hits = [.slot (some 0) (some 0, some 0) (some 1, some 0) false,
      .slot (some 0) (some 1, some 0) (some 2, some 0) false] ∧
    f.hitCount 1 = .ok (some 1) :=
  ⟨_, rfl, by decide +kernel, by decide +kernel⟩

/-- **C25 fails** if a number is defined again after use: the hole made with the first tool 1 is
reported for no tool. -/
theorem C25_redefined_violated : ∃ f, parseRaw none [] (prog ["M48", "INCH,LZ", "T01C0.020", "%", "T01",
      "X01Y01", "M48", "T01C0.030", "%", "M30"]) = .ok f ∧
    f.hits = [.hole (some 0) (1, 1)] ∧ f.hitCounts = .ok [(1, 0)] :=
  ⟨_, rfl, by decide +kernel, by decide +kernel⟩

-- the hypotheses of C25_hit_count_partial
example : ∃ f, parseRaw none [] (prog ["M48", "INCH,LZ", "T01C0.020", "T02C0.030", "%", "T01", "X01Y01",
      "T02", "X01Y02", "R2X01", "M30"]) = .ok f ∧ FreshTools [] ∧
    (Mach.start (startsIncremental none)).anyBare (f.statements.map (·.kind)) = false ∧
    (∀ x ∈ f.hits, ∃ r, x.tool = some r ∧ r ∈ f.tools.map (·.2)) ∧ f.hitCount 2 = .ok (some 3) := by
  refine ⟨_, rfl, fun x hx => (by cases hx), by decide +kernel, fun x hx => ?_, by decide +kernel⟩
  have h : x ∈ [Hit.hole (some 0) (1, 1), .hole (some 1) (1, 2), .hole (some 1) (2, 2),
      .hole (some 1) (3, 2)] := by
    refine Eq.mp (congrArg (fun l => x ∈ l) ?_) hx
    decide +kernel
  simp only [List.mem_cons, List.not_mem_nil, or_false] at h
  rcases h with rfl | rfl | rfl | rfl
  · exact ⟨0, rfl, by decide +kernel⟩
  · exact ⟨1, rfl, by decide +kernel⟩
  · exact ⟨1, rfl, by decide +kernel⟩
  · exact ⟨1, rfl, by decide +kernel⟩

/-- **C26 fails** in the header, where the parser drills holes but ignores repeat commands. -/
theorem C26_header_violated : madeBy ["M48", "T01C0.020", "X01Y01", "R2X01", "M30"] =
    some [.hole (some 0) (1, 1)] := by
  decide +kernel

/-- **C26 fails** without an active tool: `AttributeError`. -/
theorem C26_no_tool_violated :
    parseRaw none [] (prog ["M48", "T01C0.020", "%", "R2X01", "M30"]) = .error .attributeError := by
  decide +kernel

end Verif.Excellon
