import Verif.Model.ExcellonBackend
import Verif.Spec.Excellon
import Verif.Lemmas.ExcellonWrite

/-! # Programs rendered from drills and slots make these drills and slots (C58) -/

namespace Verif.Excellon
open Verif.Py Verif.Cam Spec

/-- The tool number chosen after a statement. -/
def chosen (t : Option ℤ) : Kind → Option ℤ
  | .toolSel n _ => some n
  | _ => t

/-- Everything a program makes, in order, each with the number of the tool. -/
def Spec.Mach.tooled (m : Mach) (t : Option ℤ) : List Kind → List (Option ℤ × Feature)
  | [] => []
  | k :: l => (m.makes k).map (fun f => (t, f)) ++ (m.next k).tooled (chosen t k) l

/-- What a primitive stands for: hole or slot, with the number of its tool. -/
def DrillPrim.feature (numbers : ℕ → ℤ) : DrillPrim → Option (Option ℤ × Feature)
  | .drill p (some r) => some (some (numbers r), .hole p)
  | .slot a b (some (r, _)) => some (some (numbers r), .slot (both a) (both b))
  | _ => none

/-- The tool of a primitive. -/
def DrillPrim.tool? : DrillPrim → Option ℕ
  | .drill _ t => t
  | .slot _ _ h => h.map (·.1)
  | .other => none

theorem tooled_append (a b : List Kind) : ∀ (m : Mach) (t : Option ℤ), m.tooled t (a ++ b) =
    m.tooled t a ++ (m.after a).tooled (a.foldl chosen t) b := by
  induction a with
  | nil => intro m t; rfl
  | cons k a ih =>
    intro m t
    rw [List.cons_append, Mach.tooled, Mach.tooled, ih, List.append_assoc]
    rfl

/-- The machine at the end of the header. -/
def ready (inc : Bool) : Mach := ⟨inc, (0, 0), .drill, false⟩

variable {inc : Bool}

/-- State of the machine after the body, and what was made. -/
structure Follows (inc : Bool) (numbers : ℕ → ℤ) (c : DrillCtx) (fs : List (Option ℤ × Feature)) : Prop where
  mach : (ready inc).after c.body = ⟨false, c.pos.getD (0, 0), if c.slotMode then .linear else .drill, c.down⟩
  up : c.slotMode = false → c.down = false
  tool : c.body.foldl chosen none = c.cur.map numbers
  made : (ready inc).tooled none c.body = fs

theorem goto_simplify (c : DrillCtx) (p : ℚ × ℚ) (ph : Phase) (d : Bool) :
    (Mach.goto ⟨false, c.pos.getD (0, 0), ph, d⟩ (c.simplify p).1 (c.simplify p).2) = ⟨false, p, ph, d⟩ := by
  obtain ⟨a, b⟩ := p
  unfold DrillCtx.simplify Mach.goto
  cases c.pos with
  | none => simp [axis]
  | some q =>
    obtain ⟨x, y⟩ := q
    simp only [Option.getD_some, Mach.mk.injEq, and_true, true_and, Prod.mk.injEq]
    constructor
    · by_cases h : a = x <;> simp [h, axis]
    · by_cases h : b = y <;> simp [h, axis]

/-- A statement appended to the body. -/
theorem body_concat (inc : Bool) (body : List Kind) (k : Kind) :
    (ready inc).after (body ++ [k]) = ((ready inc).after body).next k ∧
    (body ++ [k]).foldl chosen none = chosen (body.foldl chosen none) k ∧
    (ready inc).tooled none (body ++ [k]) = (ready inc).tooled none body ++
      (((ready inc).after body).makes k).map fun f => (body.foldl chosen none, f) := by
  refine ⟨by rw [after_append]; rfl, by rw [List.foldl_append]; rfl, ?_⟩
  rw [tooled_append]
  simp [Mach.tooled]

theorem Follows.startDrill {numbers : ℕ → ℤ} {c : DrillCtx} {fs : List (Option ℤ × Feature)} (h : Follows inc numbers c fs) :
    Follows inc numbers (if c.slotMode then c.startDrill else c) fs ∧
      (if c.slotMode then c.startDrill else c).slotMode = false := by
  by_cases hs : c.slotMode = true
  · rw [if_pos hs]
    unfold DrillCtx.startDrill
    rw [if_pos hs]
    refine ⟨?_, rfl⟩
    have hm := h.mach
    rw [hs, if_pos rfl] at hm
    cases hd : c.down with
    | false =>
      rw [hd] at hm
      obtain ⟨e1, e2, e3⟩ := body_concat inc c.body .drillMode
      constructor
      · simp only [Bool.false_eq_true, if_false, List.append_nil]
        rw [e1, hm]
        rfl
      · intro _; rfl
      · simp only [Bool.false_eq_true, if_false, List.append_nil]
        rw [e2, h.tool]
        rfl
      · simp only [Bool.false_eq_true, if_false, List.append_nil]
        rw [e3, h.made]
        simp [Mach.makes]
    | true =>
      rw [hd] at hm
      constructor
      · simp only [if_true]
        rw [after_append, after_append, hm]
        rfl
      · intro _; rfl
      · simp only [if_true, List.foldl_append]
        rw [h.tool]
        rfl
      · simp only [if_true]
        rw [tooled_append, tooled_append, h.made]
        simp [Mach.tooled, Mach.makes]
  · rw [if_neg hs]
    exact ⟨h, by simpa using hs⟩

theorem Follows.useTool {numbers : ℕ → ℤ} {c c' : DrillCtx} {fs : List (Option ℤ × Feature)} (h : Follows inc numbers c fs)
    {r : ℕ} (hu : c.useTool true numbers r = .ok c') :
    Follows inc numbers c' fs ∧ c'.cur = some r ∧ c'.slotMode = c.slotMode ∧ c'.pos = c.pos ∧ c'.down = c.down := by
  unfold DrillCtx.useTool at hu
  rw [if_pos rfl] at hu
  have hx : ∃ d : DrillCtx, (if r ∈ c.handled then c else
      { c with handled := c.handled ++ [r], header := c.header ++ [.tool r] }) = d ∧ Follows inc numbers d fs ∧
      d.slotMode = c.slotMode ∧ d.pos = c.pos ∧ d.down = c.down := by
    split
    · exact ⟨c, rfl, h, rfl, rfl, rfl⟩
    · exact ⟨_, rfl, ⟨h.mach, h.up, h.tool, h.made⟩, rfl, rfl, rfl⟩
  obtain ⟨d, e, hd, k1, k2, k3⟩ := hx
  simp only [e] at hu
  cases hu
  obtain ⟨e1, e2, e3⟩ := body_concat inc d.body (.toolSel (numbers r) none)
  by_cases hc : d.cur = some r
  · rw [if_neg (not_not.2 hc)]
    exact ⟨hd, hc, k1, k2, k3⟩
  · rw [if_pos hc]
    refine ⟨⟨?_, hd.up, ?_, ?_⟩, rfl, k1, k2, k3⟩
    · rw [e1, hd.mach]; rfl
    · rw [e2]; rfl
    · rw [e3, hd.made]; simp [Mach.makes]

theorem Follows.goStart {numbers : ℕ → ℤ} {c : DrillCtx} {fs : List (Option ℤ × Feature)} (h : Follows inc numbers c fs)
    (p : ℚ × ℚ) : ∃ ph, (ready inc).after (c.goStart p).body = ⟨false, p, ph, (c.goStart p).down⟩ ∧
      (c.goStart p).pos = some p ∧ (c.goStart p).cur = c.cur ∧
      (c.goStart p).body.foldl chosen none = c.cur.map numbers ∧ (ready inc).tooled none (c.goStart p).body = fs := by
  unfold DrillCtx.goStart
  by_cases hp : c.pos = some p
  · rw [if_neg (not_not.2 hp)]
    exact ⟨_, by rw [h.mach, hp]; rfl, hp, rfl, h.tool, h.made⟩
  · rw [if_pos hp]
    have key : ∀ d : DrillCtx, d.pos = c.pos → d.cur = c.cur →
        (∃ ph, (ready inc).after d.body = ⟨false, c.pos.getD (0, 0), ph, d.down⟩) → d.down = false →
        d.body.foldl chosen none = c.cur.map numbers → (ready inc).tooled none d.body = fs →
        ∃ ph, (ready inc).after (d.put (.coord (d.simplify p).1 (d.simplify p).2 (some "ROUT")) p).body =
          ⟨false, p, ph, (d.put (.coord (d.simplify p).1 (d.simplify p).2 (some "ROUT")) p).down⟩ ∧
          (d.put (.coord (d.simplify p).1 (d.simplify p).2 (some "ROUT")) p).pos = some p ∧
          (d.put (.coord (d.simplify p).1 (d.simplify p).2 (some "ROUT")) p).cur = c.cur ∧
          (d.put (.coord (d.simplify p).1 (d.simplify p).2 (some "ROUT")) p).body.foldl chosen none = c.cur.map numbers ∧
          (ready inc).tooled none (d.put (.coord (d.simplify p).1 (d.simplify p).2 (some "ROUT")) p).body = fs := by
      intro d d1 d2 ⟨ph, d3⟩ d4 d5 d6
      obtain ⟨e1, e2, e3⟩ := body_concat inc d.body (.coord (d.simplify p).1 (d.simplify p).2 (some "ROUT"))
      refine ⟨.rout, ?_, rfl, d2, ?_, ?_⟩
      · show (ready inc).after (d.body ++ [_]) = _
        rw [e1, d3, ← d1]
        show Mach.goto ⟨false, d.pos.getD (0, 0), .rout, d.down⟩ _ _ = _
        rw [goto_simplify]
        rfl
      · show (d.body ++ [_]).foldl chosen none = _
        rw [e2, d5]
        rfl
      · show (ready inc).tooled none (d.body ++ [_]) = _
        rw [e3, d6, d3]
        simp [Mach.makes]
    cases hd : c.down with
    | false =>
      simp only [Bool.false_eq_true, if_false]
      exact key c rfl rfl ⟨_, h.mach⟩ hd h.tool h.made
    | true =>
      simp only [if_true]
      obtain ⟨e1, e2, e3⟩ := body_concat inc c.body .retractClamp
      refine key { c with body := c.body ++ [.retractClamp], down := false } rfl rfl ⟨if c.slotMode then .linear else .drill, ?_⟩
        rfl ?_ ?_
      · show (ready inc).after (c.body ++ [.retractClamp]) = _
        rw [e1, h.mach]
        rfl
      · show (c.body ++ [Kind.retractClamp]).foldl chosen none = _
        rw [e2, h.tool]
        rfl
      · show (ready inc).tooled none (c.body ++ [.retractClamp]) = _
        rw [e3, h.made]
        simp [Mach.makes]

/-- One primitive. -/
theorem Follows.render {numbers : ℕ → ℤ} {c c' : DrillCtx} {fs : List (Option ℤ × Feature)} (h : Follows inc numbers c fs)
    {p : DrillPrim} (hr : c.render true numbers p = .ok c') :
    ∃ f, p.feature numbers = some f ∧ Follows inc numbers c' (fs ++ [f]) := by
  cases p with
  | other => cases hr
  | drill p hit =>
    cases hit with
    | none => cases hr
    | some r =>
      refine ⟨_, rfl, ?_⟩
      obtain ⟨hd, hs⟩ := h.startDrill
      revert hr hd hs
      simp only [DrillCtx.render]
      generalize (if c.slotMode then c.startDrill else c) = d
      intro hr hd hs
      obtain ⟨e, hu, hr⟩ := bindOk hr
      cases hr
      obtain ⟨he, u1, u2, u3, u4⟩ := hd.useTool hu
      have hes : e.slotMode = false := u2.trans hs
      have hm := he.mach
      rw [hes, he.up hes] at hm
      simp only [Bool.false_eq_true, if_false] at hm
      obtain ⟨e1, e2, e3⟩ := body_concat inc e.body (.coord (e.simplify p).1 (e.simplify p).2 none)
      constructor
      · show (ready inc).after (e.body ++ [_]) = _
        rw [e1, hm]
        show Mach.goto ⟨false, e.pos.getD (0, 0), .drill, false⟩ _ _ = _
        rw [goto_simplify]
        simp [DrillCtx.put, hes, he.up hes]
      · exact he.up
      · show (e.body ++ [_]).foldl chosen none = _
        rw [e2, he.tool]
        rfl
      · show (ready inc).tooled none (e.body ++ [_]) = _
        rw [e3, he.made, hm, he.tool, u1]
        simp only [Mach.makes, reduceCtorEq, false_and, if_false, Phase.drills, if_true, List.map_cons, List.map_nil,
          goto_simplify, Option.map_some]
  | slot a b hit =>
    cases hit with
    | none => cases hr
    | some x =>
      obtain ⟨r, rout⟩ := x
      refine ⟨_, rfl, ?_⟩
      simp only [DrillCtx.render] at hr
      obtain ⟨e, hu, hr⟩ := bindOk hr
      obtain ⟨he, u1, _, _, _⟩ := h.useTool hu
      cases rout with
      | true =>
        simp only [if_true] at hr
        cases hr
        obtain ⟨ph, g1, g2, g3, g4, g5⟩ := he.goStart a
        generalize e.goStart a = g at g1 g2 g3 g4 g5 ⊢
        have hl : (ready inc).after g.lower.body = ⟨false, a, ph, true⟩ ∧ g.lower.pos = some a ∧ g.lower.cur = some r ∧
            g.lower.down = true ∧
            g.lower.body.foldl chosen none = some (numbers r) ∧ (ready inc).tooled none g.lower.body = fs := by
          unfold DrillCtx.lower
          cases hd : g.down with
          | true =>
            rw [hd] at g1
            rw [if_pos rfl]
            exact ⟨g1, g2, g3.trans u1, hd, by rw [g4, u1]; rfl, g5⟩
          | false =>
            obtain ⟨e1, e2, e3⟩ := body_concat inc g.body .zRout
            simp only [Bool.false_eq_true, if_false]
            refine ⟨by rw [e1, g1]; rfl, g2, g3.trans u1, trivial, by rw [e2, g4, u1]; rfl, ?_⟩
            rw [e3, g5]
            simp [Mach.makes]
        obtain ⟨l1, l2, l3, l4, l5, l6⟩ := hl
        generalize g.lower = g at l1 l2 l3 l4 l5 l6 ⊢
        obtain ⟨e1, e2, e3⟩ := body_concat inc g.body (.coord (g.simplify b).1 (g.simplify b).2 (some "LINEAR"))
        have hg : Mach.goto ⟨false, a, .linear, true⟩ (g.simplify b).1 (g.simplify b).2 = ⟨false, b, .linear, true⟩ := by
          have := goto_simplify g b .linear true
          rw [l2] at this
          exact this
        have hg' : (Mach.goto ⟨false, a, ph, true⟩ (g.simplify b).1 (g.simplify b).2).pos = b := by
          have := goto_simplify g b ph true
          rw [l2] at this
          exact congrArg Mach.pos this
        constructor
        · show (ready inc).after (g.body ++ [_]) = _
          rw [e1, l1]
          show Mach.goto ⟨false, a, .linear, true⟩ _ _ = _
          rw [hg]
          simp [DrillCtx.put, l4]
        · intro hx; cases hx
        · show (g.body ++ [_]).foldl chosen none = _
          rw [e2, l5]
          show _ = g.cur.map numbers
          rw [l3]
          rfl
        · show (ready inc).tooled none (g.body ++ [_]) = _
          rw [e3, l6, l1, l5]
          congr 1
          have : Mach.makes ⟨false, a, ph, true⟩ (.coord (g.simplify b).1 (g.simplify b).2 (some "LINEAR")) =
              [.slot (both a) (both (Mach.goto ⟨false, a, ph, true⟩ (g.simplify b).1 (g.simplify b).2).pos)] :=
            by simp [Mach.makes]
          rw [this, hg']
          rfl
      | false =>
        simp only [Bool.false_eq_true, if_false] at hr
        obtain ⟨hd, hs⟩ := he.startDrill
        have hc : (if e.slotMode then e.startDrill else e).cur = some r := by
          split
          · unfold DrillCtx.startDrill
            split <;> exact u1
          · exact u1
        revert hr hd hs hc
        generalize (if e.slotMode then e.startDrill else e) = d
        intro hr hd hs hc
        cases hr
        have hm := hd.mach
        rw [hs, hd.up hs] at hm
        simp only [Bool.false_eq_true, if_false] at hm
        obtain ⟨e1, e2, e3⟩ := body_concat inc d.body (.slot (some a.1) (some a.2) (some b.1) (some b.2))
        constructor
        · show (ready inc).after (d.body ++ [_]) = _
          rw [e1, hm]
          simp [DrillCtx.put, hs, hd.up hs, Mach.next, Mach.goto, axis]
        · exact hd.up
        · show (d.body ++ [_]).foldl chosen none = _
          rw [e2, hd.tool]
          rfl
        · show (ready inc).tooled none (d.body ++ [_]) = _
          rw [e3, hd.made, hm, hd.tool, hc]
          rfl

/-- Many primitives. -/
theorem Follows.renderAll {numbers : ℕ → ℤ} {l : List DrillPrim} : ∀ {c c' : DrillCtx} {fs : List (Option ℤ × Feature)},
    Follows inc numbers c fs → c.renderAll true numbers l = .ok c' →
    ∃ gs, l.map (·.feature numbers) = gs.map some ∧ Follows inc numbers c' (fs ++ gs) := by
  induction l with
  | nil =>
    intro c c' fs h hr
    cases hr
    exact ⟨[], rfl, by simpa using h⟩
  | cons p l ih =>
    intro c c' fs h hr
    unfold DrillCtx.renderAll at hr
    rw [List.foldlM_cons] at hr
    obtain ⟨d, h1, h2⟩ := bindOk hr
    obtain ⟨f, e, hf⟩ := h.render h1
    obtain ⟨gs, e', hg⟩ := ih hf h2
    exact ⟨f :: gs, by simp [e, e'], by simpa using hg⟩

/-! ## The header -/

/-- Comments, header, tools. -/
structure Headed (st : FileSettings) (c : DrillCtx) (used : List ℕ) : Prop where
  comments : c.comments = [.comment ("FILE_FORMAT=".toList ++ natStr st.format.1 ++ ':' :: natStr st.format.2)]
  header : c.header = .unit st.zeros none :: c.handled.map .tool
  nodup : c.handled.Nodup
  mem : ∀ r, r ∈ c.handled ↔ r ∈ used

theorem Headed.of_eq {st : FileSettings} {c d : DrillCtx} {used : List ℕ} (h : Headed st c used)
    (h1 : d.comments = c.comments) (h2 : d.header = c.header) (h3 : d.handled = c.handled) : Headed st d used :=
  ⟨h1.trans h.comments, by rw [h2, h3]; exact h.header, by rw [h3]; exact h.nodup, by rw [h3]; exact h.mem⟩

theorem Headed.startDrill {st : FileSettings} {c : DrillCtx} {used : List ℕ} (h : Headed st c used) :
    Headed st (if c.slotMode then c.startDrill else c) used := by
  split
  · unfold DrillCtx.startDrill
    split
    · exact h.of_eq rfl rfl rfl
    · exact h.of_eq rfl rfl rfl
  · exact h

theorem Headed.useTool {st : FileSettings} {numbers : ℕ → ℤ} {c c' : DrillCtx} {used : List ℕ} (h : Headed st c used)
    {r : ℕ} (hu : c.useTool true numbers r = .ok c') : Headed st c' (used ++ [r]) := by
  unfold DrillCtx.useTool at hu
  rw [if_pos rfl] at hu
  have hx : Headed st (if r ∈ c.handled then c else
      { c with handled := c.handled ++ [r], header := c.header ++ [.tool r] }) (used ++ [r]) := by
    split
    · rename_i hr
      refine ⟨h.comments, h.header, h.nodup, fun x => ?_⟩
      rw [h.mem, List.mem_append, List.mem_singleton]
      refine ⟨.inl, ?_⟩
      rintro (hx | rfl)
      · exact hx
      · exact (h.mem _).1 hr
    · rename_i hr
      refine ⟨h.comments, ?_, ?_, fun x => ?_⟩
      · simp [h.header]
      · exact List.nodup_append.2 ⟨h.nodup, by simp, by
          intro a ha b hb; rw [List.mem_singleton] at hb; rintro rfl; exact hr (hb ▸ ha)⟩
      · simp [h.mem]
  simp only at hu
  generalize (if r ∈ c.handled then c else
      { c with handled := c.handled ++ [r], header := c.header ++ [.tool r] }) = d at hu hx
  cases hu
  split
  · exact hx.of_eq rfl rfl rfl
  · exact hx

theorem Headed.render {st : FileSettings} {numbers : ℕ → ℤ} {c c' : DrillCtx} {used : List ℕ} (h : Headed st c used)
    {p : DrillPrim} (hr : c.render true numbers p = .ok c') : Headed st c' (used ++ p.tool?.toList) := by
  cases p with
  | other => cases hr
  | drill p hit =>
    cases hit with
    | none => cases hr
    | some r =>
      simp only [DrillCtx.render] at hr
      obtain ⟨e, hu, hr⟩ := bindOk hr
      cases hr
      exact (h.startDrill.useTool hu).of_eq rfl rfl rfl
  | slot a b hit =>
    cases hit with
    | none => cases hr
    | some x =>
      obtain ⟨r, rout⟩ := x
      simp only [DrillCtx.render] at hr
      obtain ⟨e, hu, hr⟩ := bindOk hr
      have he := h.useTool hu
      cases rout with
      | true =>
        simp only [if_true] at hr
        cases hr
        have h1 : Headed st (e.goStart a) (used ++ [r]) := by
          unfold DrillCtx.goStart
          split
          · split <;> exact he.of_eq rfl rfl rfl
          · exact he
        have h2 : Headed st (e.goStart a).lower (used ++ [r]) := by
          unfold DrillCtx.lower
          split
          · exact h1
          · exact h1.of_eq rfl rfl rfl
        exact h2.of_eq rfl rfl rfl
      | false =>
        simp only [Bool.false_eq_true, if_false] at hr
        cases hr
        exact he.startDrill.of_eq rfl rfl rfl

theorem Headed.renderAll {st : FileSettings} {numbers : ℕ → ℤ} {l : List DrillPrim} : ∀ {c c' : DrillCtx} {used : List ℕ},
    Headed st c used → c.renderAll true numbers l = .ok c' → Headed st c' (used ++ l.filterMap (·.tool?)) := by
  induction l with
  | nil =>
    intro c c' used h hr
    cases hr
    simpa using h
  | cons p l ih =>
    intro c c' used h hr
    unfold DrillCtx.renderAll at hr
    rw [List.foldlM_cons] at hr
    obtain ⟨d, h1, h2⟩ := bindOk hr
    have := ih (h.render h1) h2
    rw [List.append_assoc] at this
    rwa [show (p :: l).filterMap (·.tool?) = p.tool?.toList ++ l.filterMap (·.tool?) by
      rw [List.filterMap_cons]; cases p.tool? <;> rfl]

/-- Tools in the header change nothing. -/
theorem header_after (l : List ℕ) (m : Mach) (t : Option ℤ) : m.after (l.map .tool) = m ∧
    m.tooled t (l.map .tool) = [] ∧ (l.map Kind.tool).foldl chosen t = t := by
  induction l with
  | nil => exact ⟨rfl, rfl, rfl⟩
  | cons r l ih => exact ⟨ih.1, ih.2.1, ih.2.2⟩

theorem format_comment (a b : ℕ) : beginsHeader ("FILE_FORMAT=".toList ++ natStr a ++ ':' :: natStr b) = false := by
  have key : ∀ c : Char, isDig c = false → c ∉ "FILE_FORMAT=:".toList →
      c ∉ "FILE_FORMAT=".toList ++ natStr a ++ ':' :: natStr b := by
    intro c hc hn hm
    rcases List.mem_append.1 hm with hm | hm
    · rcases List.mem_append.1 hm with hm | hm
      · exact hn (by simp at hm ⊢; tauto)
      · have := List.all_eq_true.1 (natStr_all a) c hm
        rw [hc] at this; cases this
    · rcases List.mem_cons.1 hm with rfl | hm
      · exact hn (by decide)
      · have := List.all_eq_true.1 (natStr_all b) c hm
        rw [hc] at this; cases this
  unfold beginsHeader
  rw [Bool.or_eq_false_iff]
  constructor
  · rw [← Bool.not_eq_true, isInfix_iff]
    exact fun h => key 'H' (by decide) (by decide) (h.mem (by decide))
  · rw [← Bool.not_eq_true, isInfix_iff]
    exact fun h => key 'H' (by decide) (by decide) (h.mem (by decide))

/-- **C58** Executed by a drilling machine, the program rendered from drills and slots makes exactly these, in
this order, with their tools; every tool used is defined once in the header, and no other tool.

Missing: this holds if the primitives have an attribute `hit` and tools can be members of sets, that is in
Python 2 (`C58_no_hit_violated`, `C58_python3_violated`), and for the statements; not all of them can be
written as text (`C58_same_point_violated`). -/
theorem C58_program_partial {st : FileSettings} {numbers : ℕ → ℤ} {prims : List DrillPrim} {c0 c : DrillCtx}
    (h0 : DrillCtx.init st = .ok c0) (h : c0.renderAll true numbers prims = .ok c) (incremental : Bool) :
    ((Mach.start incremental).tooled none c.statements).map some = prims.map (·.feature numbers) ∧
    ∃ tools : List ℕ, tools.Nodup ∧ (∀ r, r ∈ tools ↔ ∃ p ∈ prims, p.tool? = some r) ∧
      c.header = .unit st.zeros none :: tools.map .tool := by
  unfold DrillCtx.init at h0
  split at h0
  · cases h0
  cases h0
  obtain ⟨gs, e, hf⟩ := Follows.renderAll (inc := incremental) (numbers := numbers) (fs := []) ⟨rfl, fun _ => rfl, rfl, rfl⟩ h
  have hh := Headed.renderAll (st := st) (used := []) ⟨rfl, rfl, List.nodup_nil, fun r => Iff.rfl⟩ h
  rw [List.nil_append] at hf hh
  refine ⟨?_, c.handled, hh.nodup, fun r => by rw [hh.mem]; simp, hh.header⟩
  rw [e]
  congr 1
  have hp : (Mach.start incremental).after ([.headerBegin] ++ c.comments ++ c.header ++ [.rewindStop]) = ready incremental ∧
      (Mach.start incremental).tooled none ([.headerBegin] ++ c.comments ++ c.header ++ [.rewindStop]) = [] ∧
      ([Kind.headerBegin] ++ c.comments ++ c.header ++ [Kind.rewindStop]).foldl chosen none = none := by
    rw [hh.comments, hh.header]
    simp only [List.cons_append, List.nil_append]
    have hb := format_comment st.format.1 st.format.2
    generalize "FILE_FORMAT=".toList ++ natStr st.format.1 ++ ':' :: natStr st.format.2 = t at hb
    have hn : Mach.next (Mach.next (Mach.start incremental) .headerBegin) (.comment t) = ⟨incremental, (0, 0), .header, false⟩ := by
      show (if beginsHeader t then _ else _) = _
      rw [hb]
      rfl
    obtain ⟨r1, r2, r3⟩ := header_after c.handled ⟨incremental, (0, 0), .header, false⟩ none
    refine ⟨?_, ?_, ?_⟩
    · show Mach.after (Mach.next (Mach.next (Mach.next (Mach.start incremental) .headerBegin) (.comment t)) (.unit st.zeros none)) _ = _
      rw [hn]
      show Mach.after ⟨incremental, (0, 0), .header, false⟩ (c.handled.map .tool ++ [.rewindStop]) = _
      rw [after_append, r1]
      rfl
    · show Mach.tooled (Mach.next (Mach.next (Mach.next (Mach.start incremental) .headerBegin) (.comment t)) (.unit st.zeros none)) none _ = _
      rw [hn]
      show Mach.tooled ⟨incremental, (0, 0), .header, false⟩ none (c.handled.map .tool ++ [.rewindStop]) = _
      rw [tooled_append, r1, r2]
      rfl
    · show (c.handled.map Kind.tool ++ [Kind.rewindStop]).foldl chosen none = none
      rw [List.foldl_append, r3]
      rfl
  unfold DrillCtx.statements
  rw [tooled_append, tooled_append, hp.1, hp.2.1, hp.2.2, hf.made]
  unfold DrillCtx.ending
  cases c.down <;> simp [Mach.tooled, Mach.makes]

/-- Rendering succeeds if all primitives have a hit. -/
theorem C58_renders {st : FileSettings} (hst : st.notation_ ≠ "incremental") (numbers : ℕ → ℤ) {prims : List DrillPrim}
    (h : ∀ p ∈ prims, p.tool?.isSome = true) :
    ∃ c0 c, DrillCtx.init st = .ok c0 ∧ c0.renderAll true numbers prims = .ok c := by
  have hr : ∀ (c : DrillCtx) (p : DrillPrim), p.tool?.isSome = true → ∃ c', c.render true numbers p = .ok c' := by
    intro c p hp
    cases p with
    | other => cases hp
    | drill q t =>
      cases t with
      | none => cases hp
      | some r => exact ⟨_, rfl⟩
    | slot a b t =>
      cases t with
      | none => cases hp
      | some x =>
        obtain ⟨r, rout⟩ := x
        cases rout <;> exact ⟨_, rfl⟩
  have hl : ∀ c : DrillCtx, ∃ c', c.renderAll true numbers prims = .ok c' := by
    induction prims with
    | nil => exact fun c => ⟨c, rfl⟩
    | cons p l ih =>
      intro c
      obtain ⟨d, hd⟩ := hr c p (h p (by simp))
      obtain ⟨e, he⟩ := ih (fun q hq => h q (by simp [hq])) d
      refine ⟨e, ?_⟩
      unfold DrillCtx.renderAll at he ⊢
      rw [List.foldlM_cons, hd]
      exact he
  unfold DrillCtx.init
  rw [if_neg hst]
  obtain ⟨c, hc⟩ := hl _
  exact ⟨_, c, rfl, hc⟩

/-- The primitives of the library have no attribute `hit`: none of them can be rendered. -/
theorem C58_no_hit_violated (hashable : Bool) (numbers : ℕ → ℤ) (c : DrillCtx) (p q : ℚ × ℚ) :
    c.render hashable numbers (.drill p none) = .error .attributeError ∧
    c.render hashable numbers (.slot p q none) = .error .attributeError := ⟨rfl, rfl⟩

/-- In Python 3 tools cannot be members of sets: nothing can be rendered even with this attribute. -/
theorem C58_python3_violated (numbers : ℕ → ℤ) (c : DrillCtx) (p : DrillPrim) :
    ∃ e, c.render false numbers p = .error e := by
  cases p with
  | other => exact ⟨_, rfl⟩
  | drill q t => cases t <;> exact ⟨_, rfl⟩
  | slot a b t =>
    cases t with
    | none => exact ⟨_, rfl⟩
    | some x => exact ⟨_, rfl⟩

/-- The program of some primitives as text, and what the parser makes of it. -/
def renderedText (heap : List Tool) (st : FileSettings) (prims : List DrillPrim) : PyR (List Hit) := do
  let c ← DrillCtx.init st
  let c ← c.renderAll true (fun r => ((heap[r]?).map (·.number)).getD 0) prims
  let lines ← c.statements.mapM fun k => Stmt.toExcellon (fun r => heap[r]?) st ⟨st.units, k⟩
  let f ← parseRaw (some st) [] (unlines lines)
  .ok f.hits

/-- Two tools. -/
def twoTools : List Tool := [{ settings := none, number := 1, diameter := some (1 / 2) },
  { settings := none, number := 2, diameter := some (3 / 4) }]

/-- Settings of the examples. -/
def inch24' : FileSettings := ⟨"absolute", "inch", "trailing", "leading", (2, 4), "degrees"⟩

/-- A hole at the same place with another tool is lost in the text: the line of it is empty. -/
theorem C58_same_point_violated :
    renderedText twoTools inch24' [.drill (1, 2) (some 0), .drill (1, 2) (some 1)] =
      .ok [.hole (some 0) (1, 2)] := by decide +kernel

/-- A slot that ends where it begins swallows the command after it. -/
theorem C58_round_slot_violated :
    renderedText twoTools inch24' [.slot (1, 2) (1, 2) (some (0, true)), .drill (1, 3) (some 0)] =
      .error .valueError := by decide +kernel

example : renderedText twoTools inch24' [.drill (1, 2) (some 0), .slot (1, 2) (1, 5) (some (1, true)),
    .slot (1, 5) (2, 5) (some (1, true)), .drill (2, 3) (some 0), .slot (0, 0) (0, 1) (some (0, false))] =
  .ok [.hole (some 0) (1, 2), .slot (some 1) (some 1, some 2) (some 1, some 5) false,
    .slot (some 1) (some 1, some 5) (some 2, some 5) false, .hole (some 0) (2, 3),
    .slot (some 0) (some 0, some 0) (some 0, some 1) true] := by decide +kernel

end Verif.Excellon
