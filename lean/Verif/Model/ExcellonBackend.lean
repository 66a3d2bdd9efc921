import Verif.Model.Excellon

/-! # Rendering to a drill program (gerber/render/excellon_backend.py) -/

namespace Verif.Excellon
open Verif.Py Verif.Cam

/-- What is rendered.  `hit` is the attribute `hit` of the primitive, `none` if there is no such attribute: the
classes `Drill` and `Slot` (primitives.py:1600-1697) have none.  `tool` is the tool object of the hit. -/
inductive DrillPrim
  | drill (pos : ℚ × ℚ) (tool : Option ℕ)
  | slot (start stop : ℚ × ℚ) (hit : Option (ℕ × Bool))
  | other
  deriving DecidableEq, Repr

/-- State of an `ExcellonContext` (excellon_backend.py:11-34).  `start` and `body_start` are constants.  The
statements of tools refer to the object the tool was copied from (`from_tool`, excellon_statements.py:123-136). -/
structure DrillCtx where
  comments : List Kind
  header : List Kind
  body : List Kind
  handled : List ℕ
  cur : Option ℕ
  slotMode : Bool
  down : Bool
  pos : Option (ℚ × ℚ)
  deriving DecidableEq, Repr

/-- `ExcellonContext(settings)` (excellon_backend.py:11-50). -/
def DrillCtx.init (st : FileSettings) : PyR DrillCtx :=
  if st.notation_ = "incremental" then .error .exception
  else .ok {
    comments := [.comment ("FILE_FORMAT=".toList ++ natStr st.format.1 ++ ':' :: natStr st.format.2)]
    header := [.unit st.zeros none]
    body := [.absMode]
    handled := []
    cur := none
    slotMode := false
    down := false
    pos := none }

/-- `_get_end` (excellon_backend.py:52-63). -/
def DrillCtx.ending (c : DrillCtx) : List Kind :=
  (if c.down then [.retractClamp, .retractNoClamp] else []) ++ [.endProg none none]

/-- `statements` (excellon_backend.py:65-67). -/
def DrillCtx.statements (c : DrillCtx) : List Kind :=
  [.headerBegin] ++ c.comments ++ c.header ++ [.rewindStop] ++ c.body ++ c.ending

/-- `_simplify_point` (excellon_backend.py:95-96). -/
def DrillCtx.simplify (c : DrillCtx) (p : ℚ × ℚ) : Option ℚ × Option ℚ :=
  match c.pos with
  | none => (some p.1, some p.2)
  | some q => (if p.1 ≠ q.1 then some p.1 else none, if p.2 ≠ q.2 then some p.2 else none)

/-- `_start_drill_mode` (excellon_backend.py:117-135). -/
def DrillCtx.startDrill (c : DrillCtx) : DrillCtx :=
  if c.slotMode then
    { c with
      body := c.body ++ (if c.down then [.retractClamp, .retractNoClamp] else []) ++ [.drillMode]
      down := false
      slotMode := false }
  else c

/-- The tool of a hit (excellon_backend.py:103-110, 140-147).  `hashable` tells whether tools may be members of
sets: `ExcellonStatement` defines `__eq__` without `__hash__`, so they may in Python 2 only.  There tools are
compared by identity. -/
def DrillCtx.useTool (hashable : Bool) (numbers : ℕ → ℤ) (c : DrillCtx) (r : ℕ) : PyR DrillCtx :=
  if hashable then
    let c := if r ∈ c.handled then c else { c with handled := c.handled ++ [r], header := c.header ++ [.tool r] }
    .ok (if c.cur ≠ some r then { c with body := c.body ++ [.toolSel (numbers r) none], cur := some r } else c)
  else .error .typeError

/-- Append to the body and go to a point (render/excellon_backend.py:172-174). -/
def DrillCtx.put (c : DrillCtx) (k : Kind) (p : ℚ × ℚ) : DrillCtx := { c with body := c.body ++ [k], pos := some p }

/-- Go to the start of a slot (excellon_backend.py:155-164). -/
def DrillCtx.goStart (c : DrillCtx) (p : ℚ × ℚ) : DrillCtx :=
  if c.pos ≠ some p then
    let c := if c.down then { c with body := c.body ++ [.retractClamp], down := false } else c
    c.put (.coord (c.simplify p).1 (c.simplify p).2 (some "ROUT")) p
  else c

/-- Lower the tool (excellon_backend.py:167-169). -/
def DrillCtx.lower (c : DrillCtx) : DrillCtx :=
  if c.down then c else { c with body := c.body ++ [.zRout], down := true }

/-- `render` (render.py:139-169) with `_render_drill` and `_render_slot` (excellon_backend.py:98-115, 137-185);
`hashable` as above, `numbers` the numbers of the tools. -/
def DrillCtx.render (hashable : Bool) (numbers : ℕ → ℤ) (c : DrillCtx) : DrillPrim → PyR DrillCtx
  | .drill p hit => do
    let c := if c.slotMode then c.startDrill else c
    match hit with
    | none => .error .attributeError
    | some r => do
      let c ← c.useTool hashable numbers r
      .ok (c.put (.coord (c.simplify p).1 (c.simplify p).2 none) p)
  | .slot a b hit =>
    match hit with
    | none => .error .attributeError
    | some (r, rout) => do
      let c ← c.useTool hashable numbers r
      if rout then
        let c := (c.goStart a).lower
        .ok { c.put (.coord (c.simplify b).1 (c.simplify b).2 (some "LINEAR")) b with slotMode := true }
      else
        let c := if c.slotMode then c.startDrill else c
        .ok (c.put (.slot (some a.1) (some a.2) (some b.1) (some b.2)) b)
  | .other => .error .valueError

/-- Render a list (cam.py:263-286). -/
def DrillCtx.renderAll (hashable : Bool) (numbers : ℕ → ℤ) (c : DrillCtx) (l : List DrillPrim) : PyR DrillCtx :=
  l.foldlM (fun c p => c.render hashable numbers p) c

end Verif.Excellon
