import Verif.Lemmas.ExcellonUnits
import Verif.Props.ExcellonHoles

/-! # Unit conversion of drill files (C27, C09) -/

namespace Verif.Excellon
open Verif.Py Verif.Cam Verif.Utils Spec

/-! ## C27 -/

/-- The tool is the same except that its diameter, if it has one, is multiplied by `k`, and that it is
now in unit `u`. -/
def SameToolScaled (u : String) (k : ℚ) (t t' : Tool) : Prop :=
  (∃ st, t'.settings = some st ∧ st.units = u) ∧ t'.diameter = t.diameter.map (k * ·) ∧
    t'.number = t.number ∧ t'.hitCount = t.hitCount ∧ t'.feedRate = t.feedRate ∧
    t'.retractRate = t.retractRate ∧ t'.rpm = t.rpm ∧ t'.maxHitCount = t.maxHitCount ∧
    t'.depthOffset = t.depthOffset ∧ t'.plated = t.plated

theorem conv_scaled {u : String} {g : ℚ → ℚ} {k : ℚ} (hg : ∀ v, g v = k * v) {t : Tool}
    {st : FileSettings} (hs : t.settings = some st) (hu : st.units ≠ u) :
    SameToolScaled u k t (t.conv u g) := by
  have e : t.conv u g = { t with settings := some { st with units := u }, diameter := t.diameter.map g } := by
    simp [Tool.conv, hs, hu]
  rw [e]
  refine ⟨⟨_, rfl, rfl⟩, ?_, rfl, rfl, rfl, rfl, rfl, rfl, rfl, rfl⟩
  simp only [funext hg]

/-- **C27 (partial): diameters, to metric.** For every drill file in inch that converts without
exception: every tool of the table that is in inch as well has its diameter multiplied by 25.4, and
nothing else about it changes.  Positions are missing: they are not converted, see
`C27_positions_kept`. -/
theorem C27_diameters_to_metric_partial {f f' : XFile} (hu : f.cam.units = "inch")
    (h : f.toMetric = .ok f') {n : ℤ} {r : ℕ} (hr : (n, r) ∈ f.tools) {t : Tool}
    (ht : f.heap[r]? = some t) {st : FileSettings} (hs : t.settings = some st) (hst : st.units = "inch") :
    f'.cam.units = "metric" ∧ f'.tools = f.tools ∧
      ∃ t', f'.heap[r]? = some t' ∧ SameToolScaled "metric" (127 / 5) t t' := by
  obtain ⟨_, h2, h3, _, rs, h4⟩ := toMetric_heap (by rw [hu]; decide) h
  refine ⟨by rw [h2], h3, t.conv "metric" metric, ?_, conv_scaled ?_ hs (by rw [hst]; decide)⟩
  · have hm : r ∈ f.refs ++ rs :=
      List.mem_append_left _ (List.mem_append_right _ (List.mem_map.2 ⟨_, hr, rfl⟩))
    rw [h4, convHeap_get, ht, Option.map_some, if_pos hm]
  · intro v; unfold metric mmPerInch; ring

/-- **C27 (partial): diameters, to inch.** -/
theorem C27_diameters_to_inch_partial {f f' : XFile} (hu : f.cam.units = "metric")
    (h : f.toInch = .ok f') {n : ℤ} {r : ℕ} (hr : (n, r) ∈ f.tools) {t : Tool}
    (ht : f.heap[r]? = some t) {st : FileSettings} (hs : t.settings = some st) (hst : st.units = "metric") :
    f'.cam.units = "inch" ∧ f'.tools = f.tools ∧
      ∃ t', f'.heap[r]? = some t' ∧ SameToolScaled "inch" (5 / 127) t t' := by
  obtain ⟨_, rfl⟩ := (toInch_iff (by rw [hu]; decide)).1 h
  refine ⟨rfl, rfl, t.conv "inch" inch, ?_, conv_scaled ?_ hs (by rw [hst]; decide)⟩
  · have hm : r ∈ f.refs := List.mem_append_right _ (List.mem_map.2 ⟨_, hr, rfl⟩)
    show (convHeap "inch" inch f.refs f.heap)[r]? = _
    rw [convHeap_get, ht, Option.map_some, if_pos hm]
  · intro v; unfold inch mmPerInch; ring

/-- **C27 fails for the positions of every file**: `to_inch` never touches a hit, and `to_metric` touches
none that was made with a tool of the tool table or of a tool statement, because those tools are
converted first and a hit is converted only if its tool is not. -/
theorem C27_positions_kept {f f' : XFile} :
    (f.toInch = .ok f' → f'.hits = f.hits) ∧ (f.Owned → f.toMetric = .ok f' → f'.hits = f.hits) := by
  constructor
  · intro h
    by_cases hu : f.cam.units = "inch"
    · unfold XFile.toInch at h
      rw [if_neg (by simpa using hu)] at h
      cases h; rfl
    · obtain ⟨_, rfl⟩ := (toInch_iff hu).1 h
      rfl
  · intro ho h
    by_cases hu : f.cam.units = "metric"
    · unfold XFile.toMetric at h
      rw [if_neg (by simpa using hu)] at h
      cases h; rfl
    · obtain ⟨_, rfl⟩ := (toMetric_iff hu ho).1 h
      rfl

/-- A program read and converted. -/
def convertedTo (m : Bool) (l : List String) : Option XFile :=
  match parseRaw none [] (prog l) with
  | .ok f => match (if m then f.toMetric else f.toInch) with
    | .ok f => some f
    | .error _ => none
  | .error _ => none

/-- **C27 fails**: a hole at (1, 2) inch is at (1, 2) millimetres after `to_metric`; only the tool is
converted. -/
theorem C27_positions_violated :
    ((convertedTo true ["M48", "INCH,LZ", "T01C0.1", "%", "T01", "X01Y02", "M30"]).map fun f =>
      (f.hits, f.heap.map (·.diameter), f.cam.units)) =
    some ([.hole (some 0) (1, 2)], [some (127 / 50)], "metric") := by
  decide +kernel

/-- **C27 fails** for the diameter of a tool that is defined before the unit is given: it counts as inch,
so that `to_inch` of the metric file keeps its value. -/
theorem C27_tool_before_unit_violated :
    ((convertedTo false ["M48", "T01C0.5", "METRIC,LZ", "%", "T01", "X01Y02", "M30"]).map fun f =>
      (f.heap.map (·.diameter), f.cam.units)) = some ([some (1 / 2)], "inch") := by
  decide +kernel

-- the hypotheses of the diameter theorems, with a conversion that succeeds
example : ∃ f f', parseRaw none [] (prog ["M48", "INCH,LZ", "T01C0.1", "%", "T01", "X01Y02", "M30"]) = .ok f ∧
    f.cam.units = "inch" ∧ f.toMetric = .ok f' ∧ (1, 0) ∈ f.tools ∧
    ∃ t st, f.heap[0]? = some t ∧ t.diameter = some (1 / 10) ∧ t.settings = some st ∧ st.units = "inch" :=
  ⟨_, _, rfl, rfl, rfl, by decide +kernel, _, _, rfl, by decide +kernel, rfl, rfl⟩

/-! ## C09 for Excellon -/

/-- **C09, Excellon statements.** Converting twice is converting once. -/
theorem C09_excellon_statement_idempotent (s : Stmt) :
    s.toMetric.toMetric = s.toMetric ∧ s.toInch.toInch = s.toInch := by
  rcases s with ⟨u, k⟩
  constructor
  · cases k <;> simp only [Stmt.toMetric, Stmt.convert] <;> split_ifs <;> simp_all
  · cases k <;> simp only [Stmt.toInch, Stmt.convert] <;> split_ifs <;> simp_all

theorem inch_metric (v : ℚ) : inch (metric v) = v := by unfold inch metric mmPerInch; ring
theorem metric_inch (v : ℚ) : metric (inch v) = v := by unfold inch metric mmPerInch; ring

theorem map_inch_metric (o : Option ℚ) : (o.map metric).map inch = o := by
  cases o <;> simp [inch_metric]
theorem map_metric_inch (o : Option ℚ) : (o.map inch).map metric = o := by
  cases o <;> simp [metric_inch]

theorem convert_back {a b : String} (hab : b ≠ a) {g g' : ℚ → ℚ} (hg : ∀ o : Option ℚ, (o.map g).map g' = o)
    (s : Stmt) (hs : s.units = a) : (s.convert a b g).convert b a g' = s := by
  rcases s with ⟨u, k⟩
  obtain rfl : u = a := hs
  cases k <;> simp only [Stmt.convert] <;> simp [hg]

/-- **C09, Excellon statements.** Converting there and back restores the statement. -/
theorem C09_excellon_statement_reversible (s : Stmt) :
    (s.units = "inch" → s.toMetric.toInch = s) ∧ (s.units = "metric" → s.toInch.toMetric = s) :=
  ⟨fun h => convert_back (by decide) map_inch_metric s h,
   fun h => convert_back (by decide) map_metric_inch s h⟩

example : (Stmt.mk "inch" (.coord (some 1) none none)).toMetric = ⟨"metric", .coord (some (127 / 5)) none none⟩ := by
  decide +kernel

theorem conv_back {a b : String} {g g' : ℚ → ℚ} (hg : ∀ o : Option ℚ, (o.map g).map g' = o)
    (t : Tool) {st : FileSettings} (ht : t.settings = some st) (hs : st.units = a) :
    (t.conv b g).conv a g' = t := by
  by_cases hab : a = b
  · subst hab
    simp [Tool.conv, ht, hs]
  · subst hs
    have e : t.conv b g = { t with settings := some { st with units := b }, diameter := t.diameter.map g } := by
      simp [Tool.conv, ht, hab]
    have hab' : b ≠ st.units := fun h => hab h.symm
    rw [e]
    simp only [Tool.conv, ne_eq, hab', not_false_eq_true, if_true, hg]
    rw [← ht]

/-- **C09, Excellon tools.** A tool with settings converts without exception; converting twice is
converting once, and converting there and back restores the tool. -/
theorem C09_excellon_tool {t : Tool} {st : FileSettings} (ht : t.settings = some st) :
    (∃ t', t.toMetric = .ok t' ∧ t'.toMetric = .ok t' ∧ (st.units = "inch" → t'.toInch = .ok t)) ∧
    (∃ t', t.toInch = .ok t' ∧ t'.toInch = .ok t' ∧ (st.units = "metric" → t'.toMetric = .ok t)) := by
  have hi : t.settings.isSome := by rw [ht]; rfl
  constructor
  · refine ⟨t.conv "metric" metric, Tool.convert_some hi, ?_, fun hu => ?_⟩
    · exact (Tool.convert_some (by rw [Tool.conv_isSome]; exact hi)).trans
        (by rw [Tool.conv_conv])
    · exact (Tool.convert_some (by rw [Tool.conv_isSome]; exact hi)).trans
        (by rw [conv_back map_inch_metric t ht hu])
  · refine ⟨t.conv "inch" inch, Tool.convert_some hi, ?_, fun hu => ?_⟩
    · exact (Tool.convert_some (by rw [Tool.conv_isSome]; exact hi)).trans
        (by rw [Tool.conv_conv])
    · exact (Tool.convert_some (by rw [Tool.conv_isSome]; exact hi)).trans
        (by rw [conv_back map_metric_inch t ht hu])

/-- Everything in the file is in unit `u`. -/
structure XFile.AllIn (u : String) (f : XFile) : Prop where
  file : f.cam.units = u
  statements : ∀ s ∈ f.statements, s.toolRef = none → s.units = u
  tools : ∀ r ∈ f.refs, ∃ t st, f.heap[r]? = some t ∧ t.settings = some st ∧ st.units = u
  owned : f.Owned

/-- A call of `to_metric` (`true`) or `to_inch` (`false`). -/
def XFile.call (f : XFile) (m : Bool) : PyR XFile := if m then f.toMetric else f.toInch

/-- The file in the other unit. -/
def XFile.conv (a b : String) (g : ℚ → ℚ) (f : XFile) : XFile :=
  { f with
    statements := f.statements.map (Stmt.conv a b g)
    heap := convHeap b g f.refs f.heap
    cam := { f.cam with units := b } }

theorem conv_refs (a b : String) (g : ℚ → ℚ) (f : XFile) : (f.conv a b g).refs = f.refs := by
  unfold XFile.refs XFile.conv
  simp only [List.filterMap_map]
  congr 1
  refine congrArg (fun h => List.filterMap h f.statements) (funext fun s => ?_)
  exact Stmt.conv_toolRef a b g s

theorem conv_units {a b : String} {g : ℚ → ℚ} {s : Stmt} (hr : s.toolRef = none) (hs : s.units = a) :
    (s.conv a b g).units = b := by
  rcases s with ⟨u, k⟩
  obtain rfl : u = a := hs
  cases k <;> simp only [Stmt.conv, Stmt.convert, if_true] <;> cases hr

theorem XFile.AllIn.conv {a b : String} {g : ℚ → ℚ} {f : XFile} (h : f.AllIn a) :
    (f.conv a b g).AllIn b where
  file := rfl
  statements := by
    intro s hs hr
    obtain ⟨s', h1, rfl⟩ := List.mem_map.1 hs
    rw [Stmt.conv_toolRef] at hr
    exact conv_units hr (h.statements s' h1 hr)
  tools := by
    intro r hr
    rw [conv_refs] at hr
    obtain ⟨t, st, h1, h2, _⟩ := h.tools r hr
    exact convHeap_units hr ⟨t, h1, by rw [h2]; rfl⟩
  owned := by
    intro x hx
    rw [conv_refs]
    exact h.owned x hx

theorem XFile.AllIn.back {a b : String} (hab : b ≠ a) {g g' : ℚ → ℚ}
    (hg : ∀ o : Option ℚ, (o.map g).map g' = o) {f : XFile} (h : f.AllIn a) :
    (f.conv a b g).conv b a g' = f := by
  have h1 : (f.statements.map (Stmt.conv a b g)).map (Stmt.conv b a g') = f.statements := by
    rw [List.map_map]
    refine (List.map_congr_left fun s hs => ?_).trans (List.map_id _)
    show (s.conv a b g).conv b a g' = s
    by_cases hr : s.toolRef = none
    · have hc := convert_back hab hg s (h.statements s hs hr)
      rcases s with ⟨u, k⟩
      obtain rfl : u = a := h.statements _ hs hr
      cases k <;> simp only [Stmt.conv, Stmt.convert, if_true] at hc ⊢ <;> first | exact hc | rfl
    · rcases s with ⟨u, k⟩
      cases k <;> first | rfl | exact absurd rfl hr
  have h2 : convHeap a g' (f.conv a b g).refs (convHeap b g f.refs f.heap) = f.heap := by
    rw [conv_refs]
    refine List.ext_getElem? fun r => ?_
    rw [convHeap_get, convHeap_get]
    by_cases hr : r ∈ f.refs
    · obtain ⟨t, st, h3, h4, h5⟩ := h.tools r hr
      simp only [h3, Option.map_some, if_pos hr, conv_back hg t h4 h5]
    · simp only [if_neg hr]
      cases f.heap[r]? <;> rfl
  have h3 : { f.cam with units := a } = f.cam := by rw [← h.file]
  calc (f.conv a b g).conv b a g'
      = ⟨(f.statements.map (Stmt.conv a b g)).map (Stmt.conv b a g'),
          convHeap a g' (f.conv a b g).refs (convHeap b g f.refs f.heap), f.tools, f.hits,
          { f.cam with units := a }⟩ := rfl
    _ = f := by rw [h1, h2, h3]

theorem XFile.AllIn.call {f : XFile} (h : f.AllIn "inch") :
    f.call false = .ok f ∧ f.call true = .ok (f.conv "inch" "metric" metric) ∧
    (f.conv "inch" "metric" metric).call true = .ok (f.conv "inch" "metric" metric) ∧
    (f.conv "inch" "metric" metric).call false = .ok f := by
  have h' := h.conv (b := "metric") (g := metric)
  have has : ∀ {f : XFile} {u}, f.AllIn u → ∀ r ∈ f.refs, HasSettings f.heap r := by
    intro f u h r hr
    obtain ⟨t, st, h1, h2, _⟩ := h.tools r hr
    exact ⟨t, h1, by rw [h2]; rfl⟩
  refine ⟨?_, ?_, ?_, ?_⟩
  · show f.toInch = _
    exact if_neg (by rw [h.file]; decide)
  · exact (toMetric_iff (by rw [h.file]; decide) h.owned).2 ⟨has h, rfl⟩
  · show (f.conv "inch" "metric" metric).toMetric = _
    exact if_neg (by rw [h'.file]; decide)
  · refine (toInch_iff (by rw [h'.file]; decide)).2 ⟨has h', ?_⟩
    exact (h.back (by decide) map_inch_metric).symm

theorem XFile.AllIn.call_metric {f : XFile} (h : f.AllIn "metric") :
    f.call true = .ok f ∧ f.call false = .ok (f.conv "metric" "inch" inch) ∧
    (f.conv "metric" "inch" inch).call false = .ok (f.conv "metric" "inch" inch) ∧
    (f.conv "metric" "inch" inch).call true = .ok f := by
  have h' := h.conv (b := "inch") (g := inch)
  have has : ∀ {f : XFile} {u}, f.AllIn u → ∀ r ∈ f.refs, HasSettings f.heap r := by
    intro f u h r hr
    obtain ⟨t, st, h1, h2, _⟩ := h.tools r hr
    exact ⟨t, h1, by rw [h2]; rfl⟩
  refine ⟨?_, ?_, ?_, ?_⟩
  · show f.toMetric = _
    exact if_neg (by rw [h.file]; decide)
  · exact (toInch_iff (by rw [h.file]; decide)).2 ⟨has h, rfl⟩
  · show (f.conv "metric" "inch" inch).toInch = _
    exact if_neg (by rw [h'.file]; decide)
  · refine (toMetric_iff (by rw [h'.file]; decide) h'.owned).2 ⟨has h', ?_⟩
    exact (h.back (by decide) map_metric_inch).symm

theorem calls_last {f g : XFile} {call : XFile → Bool → PyR XFile} (h1 : call f false = .ok f)
    (h2 : call f true = .ok g) (h3 : call g true = .ok g) (h4 : call g false = .ok f) (b : Bool) :
    ∀ (calls : List Bool), ((calls ++ [b]).foldlM call f = .ok (if b then g else f)) ∧
      ((calls ++ [b]).foldlM call g = .ok (if b then g else f))
  | [] => by
    cases b
    · exact ⟨by simp [h1], by simp [h4]⟩
    · exact ⟨by simp [h2], by simp [h3]⟩
  | c :: l => by
    have ih := calls_last h1 h2 h3 h4 b l
    cases c
    · simp only [List.cons_append, List.foldlM_cons, h1, h4]
      exact ⟨ih.1, ih.1⟩
    · simp only [List.cons_append, List.foldlM_cons, h2, h3]
      exact ⟨ih.2, ih.2⟩

/-- **C09, drill files.** For every file that is in inch throughout and every sequence of `to_metric` and
`to_inch` calls: if the last call is `to_inch`, the file is as before; if it is `to_metric`, the file is
as after one `to_metric`.  No call raises an exception; tools shared by statements, tool table and hits
are converted once. -/
theorem C09_excellon_file_inch {f : XFile} (h : f.AllIn "inch") (calls : List Bool) :
    ((calls ++ [false]).foldlM XFile.call f = .ok f) ∧
    ∃ g, f.toMetric = .ok g ∧ (calls ++ [true]).foldlM XFile.call f = .ok g := by
  obtain ⟨h1, h2, h3, h4⟩ := h.call
  exact ⟨(calls_last h1 h2 h3 h4 false calls).1, _, h2, (calls_last h1 h2 h3 h4 true calls).1⟩

/-- **C09, drill files** in metric units. -/
theorem C09_excellon_file_metric {f : XFile} (h : f.AllIn "metric") (calls : List Bool) :
    ((calls ++ [true]).foldlM XFile.call f = .ok f) ∧
    ∃ g, f.toInch = .ok g ∧ (calls ++ [false]).foldlM XFile.call f = .ok g := by
  obtain ⟨h1, h2, h3, h4⟩ := h.call_metric
  have e : ∀ l : List Bool, ∀ f, l.foldlM XFile.call f = (l.map not).foldlM (fun f b => f.call !b) f := by
    intro l
    induction l with
    | nil => intro f; rfl
    | cons c l ih =>
      intro f
      simp only [List.map_cons, List.foldlM_cons, Bool.not_not]
      exact congrArg (fun k => f.call c >>= k) (funext ih)
  have k := calls_last (f := f) (g := f.conv "metric" "inch" inch) (call := fun f b => f.call !b) h1 h2 h3 h4
  refine ⟨?_, _, h2, ?_⟩
  · rw [e, List.map_append]
    exact (k false (calls.map not)).1
  · rw [e, List.map_append]
    exact (k true (calls.map not)).1

/-- A test for `AllIn`. -/
def XFile.allIn (u : String) (f : XFile) : Bool :=
  decide (f.cam.units = u) && f.statements.all (fun s => s.toolRef.isSome || decide (s.units = u)) &&
    f.refs.all (fun r => ((f.heap[r]?).bind (·.settings)).map (·.units) == some u) &&
    f.hits.all (fun x => match x.tool with
      | some r => f.refs.contains r
      | none => false)

theorem allIn_iff {u : String} {f : XFile} (h : f.allIn u = true) : f.AllIn u := by
  simp only [XFile.allIn, Bool.and_eq_true, decide_eq_true_eq, List.all_eq_true, Bool.or_eq_true,
    beq_iff_eq] at h
  obtain ⟨⟨⟨h1, h2⟩, h3⟩, h4⟩ := h
  refine ⟨h1, fun s hs hr => ?_, fun r hr => ?_, fun x hx => ?_⟩
  · rcases h2 s hs with h | h
    · rw [hr] at h; cases h
    · exact h
  · have := h3 r hr
    rw [Option.map_eq_some_iff] at this
    obtain ⟨st, h5, h6⟩ := this
    rw [Option.bind_eq_some_iff] at h5
    obtain ⟨t, h7, h8⟩ := h5
    exact ⟨t, st, h7, h8, h6⟩
  · have := h4 x hx
    rcases ht : x.tool with _ | r
    · rw [ht] at this; cases this
    · rw [ht] at this
      exact ⟨r, by simpa using this, rfl⟩

-- a file that is in inch throughout, and has holes
example : ∃ f : XFile, f.AllIn "inch" ∧ f.hits ≠ [] := by
  have h : (match parseRaw none [] (prog ["M48", "INCH,LZ", "T01C0.1", "%", "T01", "X01Y02", "M30"]) with
      | .ok f => f.allIn "inch" && decide (f.hits ≠ [])
      | .error _ => false) = true := by decide +kernel
  rcases hp : parseRaw none [] (prog ["M48", "INCH,LZ", "T01C0.1", "%", "T01", "X01Y02", "M30"]) with e | f
  · rw [hp] at h; cases h
  · rw [hp] at h
    simp only [Bool.and_eq_true, decide_eq_true_eq] at h
    exact ⟨f, allIn_iff h.1, h.2⟩

end Verif.Excellon
