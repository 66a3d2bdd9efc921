import Verif.Props.ExcellonHoles
import Verif.Lemmas.ExcellonWrite

/-! # C91: remarks in drill files make no difference -/

namespace Verif.Excellon
open Verif.Py Verif.Cam Verif.Excellon.Spec

/-! ## Specification -/

/-- What comments can say. -/
def keyWords : List String := ["FILE_FORMAT", "TYPE=NON_PLATED", "TYPE=PLATED", "HEADER:", " Holesize "]

/-- A blank line, or a comment that says nothing the parser reads. -/
def IsRemark (line : Str) : Prop :=
  strip line = [] ∨ ∃ text, strip line = ';' :: text ∧ ∀ w ∈ keyWords, ¬w.toList <:+: text

/-- Does a bare `G00` or `G01` wait for coordinates after the line? -/
def waits (b : Bool) (line : Str) : Bool :=
  if strip line = [] then b else !b && (decide (strip line = "G00".toList) || decide (strip line = "G01".toList))

/-- The second list of lines is the first with remarks put between, but no comments where a bare `G00` or `G01` waits for
its coordinates. -/
inductive Remarked : Bool → List Str → List Str → Prop
  | nil (b : Bool) : Remarked b [] []
  | cons {b : Bool} (line : Str) {a c : List Str} : Remarked (waits b line) a c → Remarked b (line :: a) (line :: c)
  | remark {r : Str} {a c : List Str} : IsRemark r → Remarked false a c → Remarked false a (r :: c)
  | blank {b : Bool} {r : Str} {a c : List Str} : strip r = [] → Remarked b a c → Remarked b a (r :: c)

/-- What is drilled: everything of a file but its statements. -/
def XFile.work (f : XFile) : List Tool × List (ℤ × ℕ) × List Hit × CamFile := (f.heap, f.tools, f.hits, f.cam)

/-! ## The parser never looks at the statements it has collected -/

/-- Everything but the statements. -/
def PState.bare (s : PState) : PState := { s with statements := [] }

/-- With other statements. -/
def PState.given (s : PState) (q : List Stmt) : PState := { s with statements := q }

theorem bare_given (s : PState) (q : List Stmt) : (s.given q).bare = s.bare := rfl

theorem given_of_bare {s t : PState} (h : s.bare = t.bare) : t = s.given t.statements := by
  cases s; cases t
  simp only [PState.bare, PState.given, PState.mk.injEq] at h ⊢
  simp [h]

/-- The outcome does not depend on the statements. -/
def Blind (f : PState → PyR PState) : Prop := ∀ s q, (f (s.given q)).map PState.bare = (f s).map PState.bare

theorem Blind.ok {g : PState → PState} (h : ∀ s q, (g (s.given q)).bare = (g s).bare) : Blind fun s => .ok (g s) :=
  fun s q => congrArg Except.ok (h s q)

theorem Blind.bind {f g : PState → PyR PState} (hf : Blind f) (hg : Blind g) : Blind fun s => f s >>= g := by
  intro s q
  have h := hf s q
  cases h1 : f s with
  | error e =>
    rw [h1] at h
    cases h2 : f (s.given q) with
    | error e' => rw [h2] at h; cases h; simp only [h1, h2]
    | ok b => rw [h2] at h; cases h
  | ok a =>
    rw [h1] at h
    cases h2 : f (s.given q) with
    | error e' => rw [h2] at h; cases h
    | ok b =>
      rw [h2] at h
      have h : a.bare = b.bare := by injection h with h; exact h.symm
      simp only [h1, h2]
      change (g b).map _ = (g a).map _
      rw [given_of_bare h]
      exact hg a _

theorem Blind.read {α : Type} {r : PState → PyR α} (hr : ∀ s q, r (s.given q) = r s) {g : α → PState → PyR PState}
    (hg : ∀ a, Blind (g a)) : Blind fun s => r s >>= fun a => g a s := by
  intro s q
  simp only [hr]
  cases r s with
  | error e => rfl
  | ok a => exact hg a s q

theorem Blind.ite {p : PState → Prop} [DecidablePred p] (hp : ∀ s q, p (s.given q) ↔ p s) {f g : PState → PyR PState}
    (hf : Blind f) (hg : Blind g) : Blind fun s => if p s then f s else g s := by
  intro s q
  by_cases h : p s
  · simp only [if_pos h, if_pos ((hp s q).2 h)]; exact hf s q
  · simp only [if_neg h, if_neg fun h' => h ((hp s q).1 h')]; exact hg s q

theorem Blind.error (e : PyErr) : Blind fun _ => .error e := fun _ _ => rfl

/-- A tool is fetched the same. -/
theorem getTool_given (s : PState) (q : List Stmt) (n : ℤ) :
    (s.given q).getTool n = (s.getTool n).map fun p => (p.1, p.2.given q) := by
  unfold PState.getTool
  change (match dictGet s.tools n with | some r => _ | none => _) = _
  cases dictGet s.tools n with
  | some r => rfl
  | none =>
    change (match dictGet s.comments n with | some r => _ | none => _) = _
    cases dictGet s.comments n with
    | some r =>
      change (s.settings >>= _) = _
      cases s.settings <;> rfl
    | none =>
      change (match dictGet s.ext n with | some r => _ | none => _) = _
      cases dictGet s.ext n with
      | some r =>
        change (s.settings >>= _) = _
        cases s.settings <;> rfl
      | none => rfl

theorem Blind.tool (n : ℤ) {g : Option ℕ → PState → PyR PState} (hg : ∀ r, Blind (g r)) :
    Blind fun s => s.getTool n >>= fun p => g p.1 p.2 := by
  intro s q
  simp only [getTool_given]
  cases s.getTool n with
  | error e => rfl
  | ok p => exact hg p.1 p.2 q

theorem blind_countHit : Blind PState.countHit := by
  intro s q
  obtain ⟨⟩ := s
  simp only [PState.countHit, PState.given]
  rename_i a _ _ _ _
  cases a <;> rfl

theorem blind_needTool : Blind PState.needTool := by
  intro s q
  unfold PState.needTool
  change Except.map _ (match s.active with | some _ => _ | none => _) = _
  cases s.active with
  | some r => rfl
  | none => exact Blind.tool 1 (g := fun r s => .ok { s with active := r }) (fun r => Blind.ok fun s q => rfl) s q

theorem blind_repeat (dx dy : ℚ) (n : ℕ) : Blind (PState.repeatHole dx dy n) := by
  induction n with
  | zero => exact Blind.ok fun s q => rfl
  | succ n ih =>
    intro s q
    simp only [PState.repeatHole]
    exact Blind.bind (blind_countHit) ih (({ s with pos := (s.pos.1 + dx, s.pos.2 + dy) } : PState).addHit
      (.hole s.active (s.pos.1 + dx, s.pos.2 + dy))) q

theorem Blind.pre {f : PState → PyR PState} (hf : Blind f) {g : PState → PState}
    (hg : ∀ s q, (g (s.given q)).bare = (g s).bare) : Blind fun s => f (g s) := by
  intro s q
  have := given_of_bare (hg s q).symm
  simp only
  rw [this]
  exact hf _ _

theorem blind_comment (line : Str) : Blind fun s => s.commentLine line := by
  have h1 : Blind fun s => s.commentLineFormat (lstripBy (· == ';') line) := by
    unfold PState.commentLineFormat
    refine Blind.ite (fun _ _ => Iff.rfl) ?_ (Blind.ok fun _ _ => rfl)
    refine Blind.read (r := fun _ => commentFormat _) (fun _ _ => rfl) fun f => ?_
    exact Blind.ok fun s q => by split <;> rfl
  refine Blind.bind (h1.pre (g := fun s => s.add _) fun _ _ => rfl) ?_
  refine Blind.ite (fun _ _ => Iff.rfl) ?_ (Blind.ok fun _ _ => rfl)
  refine Blind.read (r := fun s => ({ ({ s.commentLinePlating _ with state := _ } : PState) with
    state := "HEADER" } : PState).settings) (fun _ _ => rfl) fun st => ?_
  refine Blind.read (r := fun _ => toolDefs st.units _) (fun _ _ => rfl) fun ts => ?_
  exact Blind.ite (fun _ _ => Iff.rfl) (Blind.error _) (Blind.ok fun _ _ => rfl)

theorem blind_nextTool : Blind PState.nextTool := by
  intro s q
  unfold PState.nextTool
  have ha : (s.given q).active = s.active := rfl
  rw [ha]
  cases s.active with
  | none => rfl
  | some r =>
    refine Blind.read (r := fun s => pyIdx s.heap r) (fun _ _ => rfl)
      (g := fun t s => s.getTool (t.number + 1) >>= fun p => .ok { p.2.add (.nextTool (some r) p.1) with active := p.1 })
      (fun t => ?_) s q
    exact Blind.tool _ (g := fun n s => .ok { s.add (.nextTool (some r) n) with active := n })
      fun n => Blind.ok fun _ _ => rfl

theorem blind_rout (line : Str) : Blind fun s => s.rout line := by
  refine Blind.read (r := fun s => s.settings) (fun _ _ => rfl) (g := fun st s => coords (line.drop 3) st >>= fun p =>
    .ok { ({ s.add .routeMode with state := "ROUT" } : PState).add (.coord p.1 p.2 (some "ROUT")) with
      pos := move s.notation_ s.pos p.1 p.2 }) fun st => ?_
  exact Blind.read (r := fun _ => coords _ _) (fun _ _ => rfl) fun p => Blind.ok fun _ _ => rfl

theorem blind_linear (line : Str) : Blind fun s => s.linear line := by
  refine Blind.read (r := fun s => s.settings) (fun _ _ => rfl) (g := fun st s => coords (line.drop 3) st >>= fun p =>
    if s.down then
      PState.needTool { ({ s.add .routeMode with state := "LINEAR" } : PState).add (.coord p.1 p.2 (some "LINEAR")) with
        pos := move s.notation_ s.pos p.1 p.2 } >>= fun t =>
        (t.addHit (.slot t.active (both s.pos) (both t.pos) false)).countHit
    else .ok { ({ s.add .routeMode with state := "LINEAR" } : PState).add (.coord p.1 p.2 (some "LINEAR")) with
      pos := move s.notation_ s.pos p.1 p.2 }) fun st => ?_
  refine Blind.read (r := fun _ => coords _ _) (fun _ _ => rfl) fun p => ?_
  refine Blind.ite (fun _ _ => Iff.rfl) ?_ (Blind.ok fun _ _ => rfl)
  intro s q
  exact Blind.bind (g := fun t => (t.addHit (.slot t.active (both s.pos) (both t.pos) false)).countHit)
    (blind_needTool.pre (g := fun s => { ({ s.add .routeMode with state := "LINEAR" } : PState).add
      (.coord p.1 p.2 (some "LINEAR")) with pos := move s.notation_ s.pos p.1 p.2 }) fun _ _ => rfl)
    (blind_countHit.pre (g := fun t => t.addHit (.slot t.active (both s.pos) (both t.pos) false)) fun _ _ => rfl) s q

theorem blind_defineTool (line : Str) : Blind fun s => s.defineTool line := by
  unfold PState.defineTool
  refine Blind.ite (fun _ _ => Iff.rfl) ?_ (Blind.ok fun _ _ => rfl)
  refine Blind.read (r := fun s => s.settings) (fun _ _ => rfl) fun st => ?_
  intro s q
  exact Blind.read (r := fun s => Tool.fromExcellon line st s.plated) (fun _ _ => rfl)
    (g := fun t s => .ok (PState.add { s with
      heap := s.heap ++ [s.mergeProperties t]
      tools := dictSet s.tools (s.mergeProperties t).number s.heap.length } (.tool s.heap.length)))
    (fun t => Blind.ok fun _ _ => rfl) s q

theorem blind_selectTool (line : Str) : Blind fun s => s.selectTool line := by
  intro s q
  unfold PState.selectTool
  cases toolSelFrom line with
  | error e => rfl
  | ok k =>
    cases k with
    | toolSel n c =>
      simp only [bind, Except.bind]
      by_cases hn : n = 0
      · simp only [hn, if_true]; rfl
      · simp only [hn, if_false]
        have := Blind.tool n (g := fun r s => match r with
          | some r => .ok { s with active := some r }
          | none => s.settings >>= fun st => .ok { s with
              heap := s.heap ++ [{ settings := some st, number := n, diameter := some (defaultDiameter st.units n) }]
              tools := dictSet s.tools n s.heap.length
              statements := insertTool ⟨"inch", .tool s.heap.length⟩ s.statements
              active := some s.heap.length }) (fun r => by
            cases r with
            | some r => exact Blind.ok fun _ _ => rfl
            | none => exact Blind.read (r := fun s => s.settings) (fun _ _ => rfl) fun st => Blind.ok fun _ _ => rfl)
        have := this.pre (g := fun s => s.add (.toolSel n c)) (fun _ _ => rfl) s q
        exact this
    | _ => rfl

theorem blind_repeatLine (line : Str) : Blind fun s => s.repeatLine line := by
  intro s q
  have hs : (s.given q).settings = s.settings := rfl
  simp only [PState.repeatLine, hs]
  cases s.settings with
  | error e => rfl
  | ok st =>
    simp only [bind, Except.bind]
    cases repFrom line st with
    | error e => rfl
    | ok k =>
      cases k with
      | rep n dx dy => exact (blind_repeat _ _ _).pre (g := fun s => s.add (.rep n dx dy)) (fun _ _ => rfl) s q
      | _ => rfl

theorem blind_slotLine (line : Str) : Blind fun s => s.slotLine line := by
  intro s q
  have hs : (s.given q).settings = s.settings := rfl
  simp only [PState.slotLine, hs]
  cases s.settings with
  | error e => rfl
  | ok st =>
    simp only [bind, Except.bind]
    cases slotFrom line st with
    | error e => rfl
    | ok k =>
      cases k with
      | slot x1 y1 x2 y2 =>
        have : Blind fun s : PState => if s.state = "DRILL" ∨ s.state = "HEADER" then
            s.needTool >>= fun s => (s.addHit (.slot s.active (x1, y1) (x2, y2) true)).countHit else .ok s :=
          Blind.ite (fun _ _ => Iff.rfl) (blind_needTool.bind (blind_countHit.pre (g := fun s =>
            s.addHit (.slot s.active (x1, y1) (x2, y2) true)) fun _ _ => rfl)) (Blind.ok fun _ _ => rfl)
        exact this.pre (g := fun s => { s.add (.slot x1 y1 x2 y2) with pos := move s.notation_ s.pos x2 y2 })
          (fun _ _ => rfl) s q
      | _ => rfl

theorem blind_coordLine (line : Str) : Blind fun s => s.coordLine line := by
  intro s q
  have hs : (s.given q).settings = s.settings := rfl
  simp only [PState.coordLine, hs]
  cases s.settings with
  | error e => rfl
  | ok st =>
    simp only [bind, Except.bind]
    cases coords line st with
    | error e => rfl
    | ok p =>
      obtain ⟨x, y⟩ := p
      have : Blind fun t : PState => if t.state = "LINEAR" ∧ t.down then
            t.needTool >>= fun t => .ok (t.addHit (.slot t.active (both s.pos) (both t.pos) false))
          else if t.state = "DRILL" ∨ t.state = "HEADER" then
            t.needTool >>= fun t => (t.addHit (.hole t.active t.pos)).countHit else .ok t :=
        Blind.ite (fun _ _ => Iff.rfl) (blind_needTool.bind (Blind.ok fun _ _ => rfl))
          (Blind.ite (fun _ _ => Iff.rfl) (blind_needTool.bind (blind_countHit.pre (g := fun s =>
            s.addHit (.hole s.active s.pos)) fun _ _ => rfl)) (Blind.ok fun _ _ => rfl))
      exact this.pre (g := fun s => { s.add (.coord x y none) with pos := move s.notation_ s.pos x y })
        (fun _ _ => rfl) s q

theorem blind_dispatchTools (line : Str) : Blind fun s => s.dispatchTools line := by
  unfold PState.dispatchTools
  refine Blind.ite (fun _ _ => Iff.rfl) (blind_defineTool line) ?_
  refine Blind.ite (fun _ _ => Iff.rfl) (blind_selectTool line) ?_
  refine Blind.ite (fun _ _ => Iff.rfl) (blind_repeatLine line) ?_
  refine Blind.ite (fun _ _ => Iff.rfl) ?_ (Blind.ok fun _ _ => rfl)
  exact Blind.ite (fun _ _ => Iff.rfl) (blind_slotLine line) (blind_coordLine line)

theorem blind_dispatchSettings (line : Str) : Blind fun s => s.dispatchSettings line := by
  unfold PState.dispatchSettings
  refine Blind.ite (fun _ _ => Iff.rfl) (Blind.ok fun s q => ?_) ?_
  · unfold PState.unitLine
    split <;> rfl
  refine Blind.ite (fun _ _ => Iff.rfl) (Blind.read (r := fun _ => measuringFrom line) (fun _ _ => rfl) fun m =>
    Blind.ok fun _ _ => rfl) ?_
  refine Blind.ite (fun _ _ => Iff.rfl) ?_ ?_
  · intro s q
    cases incrFrom line <;> rfl
  refine Blind.ite (fun _ _ => Iff.rfl) (Blind.read (r := fun _ => versionFrom line) (fun _ _ => rfl) fun m =>
    Blind.ok fun _ _ => rfl) ?_
  refine Blind.ite (fun _ _ => Iff.rfl) (Blind.read (r := fun _ => oneOrTwo line) (fun _ _ => rfl) fun m =>
    Blind.ok fun _ _ => rfl) ?_
  refine Blind.ite (fun _ _ => Iff.rfl) (Blind.ok fun _ _ => rfl) ?_
  refine Blind.ite (fun _ _ => Iff.rfl) (Blind.ok fun _ _ => rfl) ?_
  refine Blind.ite (fun _ _ => Iff.rfl) (Blind.ok fun _ _ => rfl) ?_
  refine Blind.ite (fun _ _ => Iff.rfl) (Blind.ok fun _ _ => rfl) ?_
  exact Blind.ite (fun _ _ => Iff.rfl) (Blind.read (r := fun _ => infeedFrom line) (fun _ _ => rfl) fun m =>
    Blind.ok fun _ _ => rfl) (blind_dispatchTools line)

theorem blind_dispatch (line : Str) : Blind fun s => s.dispatch line := by
  unfold PState.dispatch
  refine Blind.ite (fun _ _ => Iff.rfl) (blind_comment line) ?_
  refine Blind.ite (fun _ _ => Iff.rfl) (Blind.ok fun _ _ => rfl) ?_
  refine Blind.ite (fun _ _ => Iff.rfl) (Blind.ok fun _ _ => rfl) ?_
  refine Blind.ite (fun _ _ => Iff.rfl) blind_nextTool ?_
  refine Blind.ite (fun _ _ => Iff.rfl) (Blind.ok fun _ _ => rfl) ?_
  refine Blind.ite (fun _ _ => Iff.rfl) (Blind.ok fun _ _ => rfl) ?_
  refine Blind.ite (fun _ _ => Iff.rfl) (Blind.ok fun _ _ => rfl) ?_
  refine Blind.ite (fun _ _ => Iff.rfl) (Blind.ok fun _ _ => rfl) ?_
  refine Blind.ite (fun _ _ => Iff.rfl) ?_ ?_
  · refine Blind.read (r := fun s => s.settings) (fun _ _ => rfl) fun st => ?_
    exact Blind.read (r := fun _ => endFrom line st) (fun _ _ => rfl) fun k => Blind.ok fun _ _ => rfl
  refine Blind.ite (fun _ _ => Iff.rfl) (Blind.ite (fun _ _ => Iff.rfl) (Blind.ok fun _ _ => rfl) (blind_rout line)) ?_
  refine Blind.ite (fun _ _ => Iff.rfl) (Blind.ite (fun _ _ => Iff.rfl) (Blind.ok fun _ _ => rfl) (blind_linear line)) ?_
  exact Blind.ite (fun _ _ => Iff.rfl) (Blind.ok fun _ _ => rfl) (blind_dispatchSettings line)

theorem blind_parseLine (line : Str) : Blind fun s => s.parseLine line := by
  intro s q
  unfold PState.parseLine
  exact Blind.ite (p := fun _ => strip (s.prev ++ line) = []) (fun _ _ => Iff.rfl)
    (Blind.ok (g := fun s => s) fun _ _ => rfl) (blind_dispatch (s.prev ++ line)) { s with prev := [] } q

theorem blind_run (lines : List Str) : Blind fun s => s.run lines := by
  induction lines with
  | nil => exact Blind.ok fun _ _ => rfl
  | cons l lines ih => exact (blind_parseLine (strip l)).bind ih

/-! ## Only a bare `G00` or `G01` is kept for the next line -/

/-- The line kept for the next one stays. -/
def Keeps (f : PState → PyR PState) : Prop := ∀ s s', f s = .ok s' → s'.prev = s.prev

theorem Keeps.ok {g : PState → PState} (h : ∀ s, (g s).prev = s.prev) : Keeps fun s => .ok (g s) := by
  intro s s' e
  cases e
  exact h s

theorem Keeps.error (e : PyErr) : Keeps fun _ => .error e := fun _ _ h => nomatch h

theorem Keeps.bind {f g : PState → PyR PState} (hf : Keeps f) (hg : Keeps g) : Keeps fun s => f s >>= g := by
  intro s s' h
  obtain ⟨t, h1, h2⟩ := bindOk h
  exact (hg t s' h2).trans (hf s t h1)

theorem Keeps.read {α : Type} {r : PState → PyR α} {g : α → PState → PyR PState} (hg : ∀ a, Keeps (g a)) :
    Keeps fun s => r s >>= fun a => g a s := by
  intro s s' h
  obtain ⟨a, _, h2⟩ := bindOk h
  exact hg a s s' h2

theorem Keeps.ite {p : PState → Prop} [DecidablePred p] {f g : PState → PyR PState} (hf : Keeps f) (hg : Keeps g) :
    Keeps fun s => if p s then f s else g s := by
  intro s s' h
  by_cases hp : p s
  · simp only [if_pos hp] at h; exact hf s s' h
  · simp only [if_neg hp] at h; exact hg s s' h

theorem Keeps.pre {f : PState → PyR PState} (hf : Keeps f) {g : PState → PState} (hg : ∀ s, (g s).prev = s.prev) :
    Keeps fun s => f (g s) := fun s s' h => (hf _ s' h).trans (hg s)

theorem getTool_prev {s : PState} {n : ℤ} {p : Option ℕ × PState} (h : s.getTool n = .ok p) : p.2.prev = s.prev := by
  unfold PState.getTool at h
  cases h1 : dictGet s.tools n with
  | some r => rw [h1] at h; cases h; rfl
  | none =>
    rw [h1] at h
    cases h2 : dictGet s.comments n with
    | some r =>
      simp only [h2] at h
      obtain ⟨st, _, h⟩ := bindOk h
      cases h; rfl
    | none =>
      simp only [h2] at h
      cases h3 : dictGet s.ext n with
      | some r =>
        simp only [h3] at h
        obtain ⟨st, _, h⟩ := bindOk h
        cases h; rfl
      | none => simp only [h3] at h; cases h; rfl

theorem Keeps.tool (n : ℤ) {g : Option ℕ → PState → PyR PState} (hg : ∀ r, Keeps (g r)) :
    Keeps fun s => s.getTool n >>= fun p => g p.1 p.2 := by
  intro s s' h
  obtain ⟨p, h1, h2⟩ := bindOk h
  exact (hg p.1 _ _ h2).trans (getTool_prev h1)

theorem keeps_countHit : Keeps PState.countHit := by
  intro s s' h
  unfold PState.countHit at h
  split at h <;> cases h
  rfl

theorem keeps_needTool : Keeps PState.needTool := by
  intro s s' h
  unfold PState.needTool at h
  cases ha : s.active with
  | some r => rw [ha] at h; cases h; rfl
  | none =>
    rw [ha] at h
    exact Keeps.tool 1 (g := fun r s => .ok { s with active := r }) (fun r => Keeps.ok fun s => rfl) s s' h

theorem keeps_repeat (dx dy : ℚ) (n : ℕ) : Keeps (PState.repeatHole dx dy n) := by
  induction n with
  | zero => exact Keeps.ok fun s => rfl
  | succ n ih =>
    intro s s' h
    exact Keeps.bind keeps_countHit ih (({ s with pos := (s.pos.1 + dx, s.pos.2 + dy) } : PState).addHit
      (.hole s.active (s.pos.1 + dx, s.pos.2 + dy))) s' h

theorem keeps_comment (line : Str) : Keeps fun s => s.commentLine line := by
  have h1 : Keeps fun s => s.commentLineFormat (lstripBy (· == ';') line) := by
    unfold PState.commentLineFormat
    refine Keeps.ite ?_ (Keeps.ok fun _ => rfl)
    refine Keeps.read (r := fun _ => commentFormat _) fun f => ?_
    exact Keeps.ok fun s => by split <;> rfl
  refine Keeps.bind (h1.pre (g := fun s => s.add _) fun _ => rfl) ?_
  refine Keeps.ite ?_ (Keeps.ok fun _ => rfl)
  refine Keeps.read (r := fun s => ({ ({ s.commentLinePlating _ with state := _ } : PState) with
    state := "HEADER" } : PState).settings) fun st => ?_
  refine Keeps.read (r := fun _ => toolDefs st.units _) fun ts => ?_
  exact Keeps.ite (Keeps.error _) (Keeps.ok fun _ => rfl)

theorem keeps_nextTool : Keeps PState.nextTool := by
  intro s s' h
  unfold PState.nextTool at h
  cases ha : s.active with
  | none => rw [ha] at h; cases h
  | some r =>
    rw [ha] at h
    refine Keeps.read (r := fun s => pyIdx s.heap r)
      (g := fun t s => s.getTool (t.number + 1) >>= fun p => .ok { p.2.add (.nextTool (some r) p.1) with active := p.1 })
      (fun t => ?_) s s' h
    exact Keeps.tool _ (g := fun n s => .ok { s.add (.nextTool (some r) n) with active := n })
      fun n => Keeps.ok fun _ => rfl

theorem keeps_rout (line : Str) : Keeps fun s => s.rout line := by
  refine Keeps.read (r := fun s => s.settings) (g := fun st s => coords (line.drop 3) st >>= fun p =>
    .ok { ({ s.add .routeMode with state := "ROUT" } : PState).add (.coord p.1 p.2 (some "ROUT")) with
      pos := move s.notation_ s.pos p.1 p.2 }) fun st => ?_
  exact Keeps.read (r := fun _ => coords _ _) fun p => Keeps.ok fun _ => rfl

theorem keeps_linear (line : Str) : Keeps fun s => s.linear line := by
  refine Keeps.read (r := fun s => s.settings) (g := fun st s => coords (line.drop 3) st >>= fun p =>
    if s.down then
      PState.needTool { ({ s.add .routeMode with state := "LINEAR" } : PState).add (.coord p.1 p.2 (some "LINEAR")) with
        pos := move s.notation_ s.pos p.1 p.2 } >>= fun t =>
        (t.addHit (.slot t.active (both s.pos) (both t.pos) false)).countHit
    else .ok { ({ s.add .routeMode with state := "LINEAR" } : PState).add (.coord p.1 p.2 (some "LINEAR")) with
      pos := move s.notation_ s.pos p.1 p.2 }) fun st => ?_
  refine Keeps.read (r := fun _ => coords _ _) fun p => ?_
  refine Keeps.ite ?_ (Keeps.ok fun _ => rfl)
  intro s s' h
  exact Keeps.bind (g := fun t => (t.addHit (.slot t.active (both s.pos) (both t.pos) false)).countHit)
    (keeps_needTool.pre (g := fun s => { ({ s.add .routeMode with state := "LINEAR" } : PState).add
      (.coord p.1 p.2 (some "LINEAR")) with pos := move s.notation_ s.pos p.1 p.2 }) fun _ => rfl)
    (keeps_countHit.pre (g := fun t => t.addHit (.slot t.active (both s.pos) (both t.pos) false)) fun _ => rfl) s s' h

theorem keeps_defineTool (line : Str) : Keeps fun s => s.defineTool line := by
  unfold PState.defineTool
  refine Keeps.ite ?_ (Keeps.ok fun _ => rfl)
  refine Keeps.read (r := fun s => s.settings) fun st => ?_
  intro s s' h
  exact Keeps.read (r := fun s => Tool.fromExcellon line st s.plated)
    (g := fun t s => .ok (PState.add { s with
      heap := s.heap ++ [s.mergeProperties t]
      tools := dictSet s.tools (s.mergeProperties t).number s.heap.length } (.tool s.heap.length)))
    (fun t => Keeps.ok fun _ => rfl) s s' h

theorem keeps_selectTool (line : Str) : Keeps fun s => s.selectTool line := by
  intro s s' h
  unfold PState.selectTool at h
  obtain ⟨k, _, h⟩ := bindOk h
  cases k with
  | toolSel n c =>
    by_cases hn : n = 0
    · simp only [hn, if_true] at h; cases h; rfl
    · simp only [hn, if_false] at h
      have := Keeps.tool n (g := fun r s => match r with
        | some r => .ok { s with active := some r }
        | none => s.settings >>= fun st => .ok { s with
            heap := s.heap ++ [{ settings := some st, number := n, diameter := some (defaultDiameter st.units n) }]
            tools := dictSet s.tools n s.heap.length
            statements := insertTool ⟨"inch", .tool s.heap.length⟩ s.statements
            active := some s.heap.length }) (fun r => by
          cases r with
          | some r => exact Keeps.ok fun _ => rfl
          | none => exact Keeps.read (r := fun s => s.settings) fun st => Keeps.ok fun _ => rfl)
      exact this.pre (g := fun s => s.add (.toolSel n c)) (fun _ => rfl) s s' h
  | _ => cases h; rfl

theorem keeps_repeatLine (line : Str) : Keeps fun s => s.repeatLine line := by
  intro s s' h
  obtain ⟨st, _, h⟩ := bindOk h
  obtain ⟨k, _, h⟩ := bindOk h
  cases k with
  | rep n dx dy => exact (keeps_repeat _ _ _).pre (g := fun s => s.add (.rep n dx dy)) (fun _ => rfl) s s' h
  | _ => cases h; rfl

theorem keeps_slotLine (line : Str) : Keeps fun s => s.slotLine line := by
  intro s s' h
  obtain ⟨st, _, h⟩ := bindOk h
  obtain ⟨k, _, h⟩ := bindOk h
  cases k with
  | slot x1 y1 x2 y2 =>
    have : Keeps fun s : PState => if s.state = "DRILL" ∨ s.state = "HEADER" then
        s.needTool >>= fun s => (s.addHit (.slot s.active (x1, y1) (x2, y2) true)).countHit else .ok s :=
      Keeps.ite (keeps_needTool.bind (keeps_countHit.pre (g := fun s =>
        s.addHit (.slot s.active (x1, y1) (x2, y2) true)) fun _ => rfl)) (Keeps.ok fun _ => rfl)
    exact this.pre (g := fun s => { s.add (.slot x1 y1 x2 y2) with pos := move s.notation_ s.pos x2 y2 })
      (fun _ => rfl) s s' h
  | _ => cases h; rfl

theorem keeps_coordLine (line : Str) : Keeps fun s => s.coordLine line := by
  intro s s' h
  obtain ⟨st, _, h⟩ := bindOk h
  obtain ⟨⟨x, y⟩, _, h⟩ := bindOk h
  have : Keeps fun t : PState => if t.state = "LINEAR" ∧ t.down then
        t.needTool >>= fun t => .ok (t.addHit (.slot t.active (both s.pos) (both t.pos) false))
      else if t.state = "DRILL" ∨ t.state = "HEADER" then
        t.needTool >>= fun t => (t.addHit (.hole t.active t.pos)).countHit else .ok t :=
    Keeps.ite (keeps_needTool.bind (Keeps.ok fun _ => rfl))
      (Keeps.ite (keeps_needTool.bind (keeps_countHit.pre (g := fun s =>
        s.addHit (.hole s.active s.pos)) fun _ => rfl)) (Keeps.ok fun _ => rfl))
  exact this.pre (g := fun s => { s.add (.coord x y none) with pos := move s.notation_ s.pos x y })
    (fun _ => rfl) s s' h

theorem keeps_dispatchTools (line : Str) : Keeps fun s => s.dispatchTools line := by
  unfold PState.dispatchTools
  refine Keeps.ite (keeps_defineTool line) (Keeps.ite (keeps_selectTool line) (Keeps.ite (keeps_repeatLine line) ?_))
  exact Keeps.ite (Keeps.ite (keeps_slotLine line) (keeps_coordLine line)) (Keeps.ok fun _ => rfl)

theorem keeps_dispatchSettings (line : Str) : Keeps fun s => s.dispatchSettings line := by
  unfold PState.dispatchSettings
  refine Keeps.ite (Keeps.ok fun s => ?_) ?_
  · unfold PState.unitLine
    split <;> rfl
  refine Keeps.ite (Keeps.read (r := fun _ => measuringFrom line) fun m => Keeps.ok fun _ => rfl) ?_
  refine Keeps.ite ?_ ?_
  · intro s s' h
    cases hk : incrFrom line <;> (simp only [hk] at h; cases h; rfl)
  refine Keeps.ite (Keeps.read (r := fun _ => versionFrom line) fun m => Keeps.ok fun _ => rfl) ?_
  refine Keeps.ite (Keeps.read (r := fun _ => oneOrTwo line) fun m => Keeps.ok fun _ => rfl) ?_
  refine Keeps.ite (Keeps.ok fun _ => rfl) (Keeps.ite (Keeps.ok fun _ => rfl) (Keeps.ite (Keeps.ok fun _ => rfl) ?_))
  refine Keeps.ite (Keeps.ok fun _ => rfl) ?_
  exact Keeps.ite (Keeps.read (r := fun _ => infeedFrom line) fun m => Keeps.ok fun _ => rfl) (keeps_dispatchTools line)

/-- A line that is not a bare `G00` or `G01` is not kept. -/
theorem keeps_dispatch {line : Str} (h0 : strip line ≠ "G00".toList) (h1 : strip line ≠ "G01".toList) :
    Keeps fun s => s.dispatch line := by
  unfold PState.dispatch
  simp only [h0, h1, if_false]
  refine Keeps.ite (keeps_comment line) (Keeps.ite (Keeps.ok fun _ => rfl) (Keeps.ite (Keeps.ok fun _ => rfl) ?_))
  refine Keeps.ite keeps_nextTool (Keeps.ite (Keeps.ok fun _ => rfl) (Keeps.ite (Keeps.ok fun _ => rfl) ?_))
  refine Keeps.ite (Keeps.ok fun _ => rfl) (Keeps.ite (Keeps.ok fun _ => rfl) (Keeps.ite ?_ ?_))
  · refine Keeps.read (r := fun s => s.settings) fun st => ?_
    exact Keeps.read (r := fun _ => endFrom line st) fun k => Keeps.ok fun _ => rfl
  exact Keeps.ite (keeps_rout line) (Keeps.ite (keeps_linear line) (Keeps.ite (Keeps.ok fun _ => rfl)
    (keeps_dispatchSettings line)))

/-! ## Lines -/

theorem strip_last (s : Str) : ∀ c ∈ (strip s).getLast?, isSpace c = false := by
  intro c hc
  unfold strip stripBy rstripBy at hc
  rw [List.getLast?_reverse] at hc
  have := List.head?_dropWhile_not isSpace (lstripBy isSpace s).reverse
  rw [hc] at this
  simpa using this

theorem strip_first (s : Str) : ∀ c ∈ (strip s).head?, isSpace c = false := by
  intro c hc
  have hp := rstripBy_prefix isSpace (lstripBy isSpace s)
  have : (lstripBy isSpace s).head? = some c := by
    obtain ⟨t, ht⟩ := hp
    rw [← ht]
    have hc : (rstripBy isSpace (lstripBy isSpace s)).head? = some c := hc
    rw [List.head?_append, hc]
    rfl
  have h := List.head?_dropWhile_not isSpace s
  rw [show s.dropWhile isSpace = lstripBy isSpace s from rfl, this] at h
  simpa using h

theorem strip_self {s : Str} (h1 : ∀ c ∈ s.head?, isSpace c = false) (h2 : ∀ c ∈ s.getLast?, isSpace c = false) :
    strip s = s := by
  unfold strip stripBy lstripBy rstripBy
  have e1 : s.dropWhile isSpace = s := by
    cases s with
    | nil => rfl
    | cons c t => rw [List.dropWhile_cons_of_neg]; simpa using h1 c (by simp)
  have e2 : s.reverse.dropWhile isSpace = s.reverse := by
    cases hr : s.reverse with
    | nil => rfl
    | cons c t =>
      rw [List.dropWhile_cons_of_neg]
      have := h2 c (by rw [← List.head?_reverse, hr]; rfl)
      simpa using this
  rw [e1, e2, List.reverse_reverse]

theorem strip_strip (s : Str) : strip (strip s) = strip s := strip_self (strip_first s) (strip_last s)

theorem strip_word_append {w : Str} (hw : ∀ c ∈ w.head?, isSpace c = false) (hne : w ≠ []) {s : Str} (hs : strip s ≠ []) :
    strip (w ++ strip s) = w ++ strip s := by
  refine strip_self ?_ ?_
  · intro c hc
    cases w with
    | nil => exact absurd rfl hne
    | cons d t => exact hw c (by simpa using hc)
  · intro c hc
    rw [List.getLast?_append_of_ne_nil _ hs] at hc
    exact strip_last s c hc

/-- The kept line. -/
def Kept (b : Bool) (s : PState) : Prop :=
  if b then s.prev = "G00".toList ∨ s.prev = "G01".toList else s.prev = []

theorem dispatch_bare (s : PState) : s.dispatch "G00".toList = .ok { s with prev := "G00".toList } ∧
    s.dispatch "G01".toList = .ok { s with prev := "G01".toList } := by
  constructor <;> rfl

theorem kept_blank {b : Bool} {s : PState} (h : Kept b s) : s.parseLine [] = .ok s := by
  cases b with
  | false =>
    have h : s.prev = [] := h
    unfold PState.parseLine
    have e : ({ s with prev := [] } : PState) = s := by rw [← h]
    simp only [h, List.append_nil, e]
    rfl
  | true =>
    have h : s.prev = "G00".toList ∨ s.prev = "G01".toList := h
    unfold PState.parseLine
    simp only [List.append_nil]
    rcases h with h | h
    · rw [h, if_neg (by decide), (dispatch_bare _).1, ← h]
    · rw [h, if_neg (by decide), (dispatch_bare _).2, ← h]

theorem kept_line {b : Bool} {s s' : PState} {line : Str} (h : Kept b s) (hs : s.parseLine (strip line) = .ok s') :
    Kept (waits b line) s' := by
  by_cases hb : strip line = []
  · rw [hb, kept_blank h] at hs
    cases hs
    rw [waits, if_pos hb]
    exact h
  · rw [waits, if_neg hb]
    unfold PState.parseLine at hs
    cases b with
    | false =>
      have h : s.prev = [] := h
      simp only [h, List.nil_append, strip_strip, if_neg hb] at hs
      by_cases h0 : strip line = "G00".toList
      · rw [h0, (dispatch_bare _).1] at hs
        cases hs
        simp only [h0]
        exact .inl rfl
      · by_cases h1 : strip line = "G01".toList
        · rw [h1, (dispatch_bare _).2] at hs
          cases hs
          simp only [h1]
          exact .inr rfl
        · simp only [h0, h1, decide_false, Bool.or_false, Bool.and_false]
          exact keeps_dispatch (by rwa [strip_strip]) (by rwa [strip_strip]) _ s' hs
    | true =>
      have h : s.prev = "G00".toList ∨ s.prev = "G01".toList := h
      simp only [Bool.not_true, Bool.false_and]
      have key : ∀ w : Str, (w = "G00".toList ∨ w = "G01".toList) → s.prev = w → s'.prev = [] := by
        intro w hw e
        rw [e] at hs
        have hlen : w.length = 3 := by rcases hw with rfl | rfl <;> rfl
        have e2 : strip (w ++ strip line) = w ++ strip line := strip_word_append
          (by rcases hw with rfl | rfl <;> decide) (by rcases hw with rfl | rfl <;> decide) hb
        have hl : ∀ v : Str, v.length = 3 → strip (w ++ strip line) ≠ v := by
          intro v hv e3
          rw [e2] at e3
          have := congrArg List.length e3
          rw [List.length_append, hlen, hv] at this
          exact hb (List.length_eq_zero_iff.1 (by omega))
        simp only [] at hs
        rw [if_neg (by rw [e2]; simp [hb])] at hs
        exact keeps_dispatch (hl _ rfl) (hl _ rfl) _ s' hs
      rcases h with h | h
      · exact key _ (.inl rfl) h
      · exact key _ (.inr rfl) h

theorem remark_line {s : PState} (h : s.prev = []) {r : Str} (hr : IsRemark r) :
    ∃ q, s.parseLine (strip r) = .ok (s.given q) := by
  rcases hr with hr | ⟨text, hr, hk⟩
  · exact ⟨s.statements, by rw [hr]; exact kept_blank (b := false) h⟩
  · have e : ({ s with prev := [] } : PState) = s := by rw [← h]
    have hne : strip (';' :: text) ≠ [] := by rw [← hr, strip_strip, hr]; simp
    have hi : ∀ w ∈ keyWords, isInfix w.toList (lstripBy (· == ';') text) = false := by
      intro w hw
      rw [← Bool.not_eq_true, isInfix_iff]
      exact fun hh => hk w hw (hh.trans (List.dropWhile_suffix _).isInfix)
    unfold PState.parseLine
    simp only [h, List.nil_append, e, hr, if_neg hne]
    refine ⟨s.statements ++ [⟨"inch", .comment (lstripBy (· == ';') text)⟩], ?_⟩
    have hl : lstripBy (· == ';') (';' :: text) = lstripBy (· == ';') text := by simp [lstripBy]
    have hd : s.dispatch (';' :: text) = s.commentLine (';' :: text) := rfl
    rw [hd]
    unfold PState.commentLine
    rw [hl]
    simp only [PState.commentLineFormat, PState.commentLinePlating, hi "FILE_FORMAT" (by decide),
      hi "TYPE=NON_PLATED" (by decide), hi "TYPE=PLATED" (by decide), hi "HEADER:" (by decide),
      hi " Holesize " (by decide)]
    rfl

theorem run_remarked {b : Bool} {a c : List Str} (h : Remarked b a c) :
    ∀ (s : PState) (q : List Stmt), Kept b s → (s.run a).map PState.bare = ((s.given q).run c).map PState.bare := by
  induction h with
  | nil b => intro s q _; rfl
  | @cons b line a c _ ih =>
    intro s q hs
    change (s.parseLine (strip line) >>= fun s => s.run a).map _ =
      ((s.given q).parseLine (strip line) >>= fun s => s.run c).map _
    have hb := blind_parseLine (strip line) s q
    cases h1 : s.parseLine (strip line) with
    | error e =>
      simp only [h1] at hb
      cases h2 : (s.given q).parseLine (strip line) with
      | error e' => rw [h2] at hb; cases hb; rfl
      | ok t => rw [h2] at hb; cases hb
    | ok t =>
      simp only [h1] at hb
      cases h2 : (s.given q).parseLine (strip line) with
      | error e' => rw [h2] at hb; cases hb
      | ok t' =>
        rw [h2] at hb
        have hb : t.bare = t'.bare := by injection hb with hb; exact hb.symm
        rw [given_of_bare hb]
        exact ih t _ (kept_line hs h1)
  | @remark r a c hr _ ih =>
    intro s q hs
    obtain ⟨q', hq⟩ := remark_line (s := s.given q) hs hr
    change _ = ((s.given q).parseLine (strip r) >>= fun s => s.run c).map _
    rw [hq]
    exact ih s q' hs
  | @blank b r a c hr _ ih =>
    intro s q hs
    have hq : (s.given q).parseLine (strip r) = .ok (s.given q) := by
      rw [hr]; exact kept_blank (b := b) (s := s.given q) hs
    change _ = ((s.given q).parseLine (strip r) >>= fun s => s.run c).map _
    rw [hq]
    exact ih s q hs

/-! ## C91 -/

/-- Lines that leave the same state but for the statements do the same work. -/
theorem same_work {settings : Option FileSettings} {ext : List (ℤ × Tool)} {a c : List Str}
    (ha : ∀ l ∈ a, '\n' ∉ l) (hc : ∀ l ∈ c, '\n' ∉ l)
    (hr : ((PState.init settings ext).run a).map PState.bare = ((PState.init settings ext).run c).map PState.bare) :
    (parseRaw settings ext (unlines a)).map XFile.work = (parseRaw settings ext (unlines c)).map XFile.work := by
  unfold parseRaw
  rw [pyLines_unlines ha, pyLines_unlines hc]
  have hf : ∀ s t : PState, s.bare = t.bare → s.finish.map XFile.work = t.finish.map XFile.work := by
    intro s t e
    rw [given_of_bare e]
    unfold PState.finish
    change _ = Except.map _ (s.settings >>= _)
    cases s.settings <;> rfl
  cases h1 : (PState.init settings ext).run a with
  | error e =>
    rw [h1] at hr
    cases h2 : (PState.init settings ext).run c with
    | error e' => rw [h2] at hr; cases hr; rfl
    | ok t => rw [h2] at hr; cases hr
  | ok s =>
    rw [h1] at hr
    cases h2 : (PState.init settings ext).run c with
    | error e' => rw [h2] at hr; cases hr
    | ok t =>
      rw [h2] at hr
      injection hr with hr
      exact hf s t hr

/-- **C91.**  Remarks between the lines of a drill file make no difference: the same holes are drilled with the same
tools and the same settings, or reading fails with the same error. -/
theorem C91_remarks_partial {settings : Option FileSettings} {ext : List (ℤ × Tool)} {a c : List Str}
    (ha : ∀ l ∈ a, '\n' ∉ l) (hc : ∀ l ∈ c, '\n' ∉ l) (h : Remarked false a c) :
    (parseRaw settings ext (unlines a)).map XFile.work = (parseRaw settings ext (unlines c)).map XFile.work :=
  same_work ha hc (run_remarked h (PState.init settings ext) (PState.init settings ext).statements rfl)

/-! ## Examples and violations -/

-- the hypothesis of C91_remarks_partial
example : Remarked false (["M48", "%", "G00", "X01Y01", "M30"].map String.toList)
    (["; a; INCH", "M48", "%", "", "G00", " ", "X01Y01", ";", "M30"].map String.toList) := by
  refine .remark (.inr ⟨" a; INCH".toList, by decide +kernel, ?_⟩) (.cons _ (.cons _ (.blank (by decide +kernel) (.cons _
    (.blank (by decide +kernel) (.cons _ (.remark (.inr ⟨[], by decide +kernel, ?_⟩) (.cons _ (.nil _)))))))))
  · intro w hw
    rw [← isInfix_iff]
    revert w
    decide +kernel
  · intro w hw
    rw [← isInfix_iff]
    revert w
    decide +kernel

/-- **C91 fails** for a comment between a bare `G01` and its coordinates: the file can not be read. -/
theorem C91_waiting_violated :
    madeBy ["M48", "INCH,LZ", "T01C0.020", "%", "T01", "G00X01Y01", "M15", "G01", "X02Y01", "M16", "M30"] =
      some [.slot (some 0) (some 1, some 1) (some 2, some 1) false] ∧
    parseRaw none [] (prog ["M48", "INCH,LZ", "T01C0.020", "%", "T01", "G00X01Y01", "M15", "G01", "; cut", "X02Y01", "M16",
      "M30"]) = .error .valueError := by
  decide +kernel

/-- **C91 fails** after the end of the program: holes after `M30` are drilled. -/
theorem C91_after_end_violated :
    madeBy ["M48", "INCH,LZ", "T01C0.020", "%", "T01", "X01Y01", "M30", "X02Y01"] =
      some [.hole (some 0) (1, 1), .hole (some 0) (2, 1)] := by
  decide +kernel

end Verif.Excellon
