import Verif.Model.ExcellonTool

/-! # The drill file parser (gerber/excellon.py) -/

namespace Verif.Excellon
open Verif.Py Verif.Cam Verif.Utils

/-- `DrillHit` (excellon.py:87-127) and `DrillSlot` (129-168).  The tool is a reference to the
tool object, `none` for `None`. -/
inductive Hit
  | hole (tool : Option ℕ) (pos : ℚ × ℚ)
  | slot (tool : Option ℕ) (start stop : Option ℚ × Option ℚ) (g85 : Bool)
  deriving DecidableEq, Repr

/-- The tool of a hit (excellon.py:98-100). -/
def Hit.tool : Hit → Option ℕ
  | .hole t _ => t
  | .slot t _ _ _ => t

/-- State of an `ExcellonParser` (excellon.py:380-401).  `heap` holds the tool objects; `tools`,
`ext` and `comments` are the dictionaries `tools`, `ext_tools` and `comment_tools` from numbers to
tool objects.  `format` is a list because a `FILE_FORMAT` comment may give any number of items. -/
structure PState where
  notation_ : String
  units : String
  zeros : String
  format : List ℕ
  state : String
  statements : List Stmt
  heap : List Tool
  tools : List (ℤ × ℕ)
  ext : List (ℤ × ℕ)
  comments : List (ℤ × ℕ)
  hits : List Hit
  active : Option ℕ
  pos : ℚ × ℚ
  down : Bool
  prev : Str
  plated : Option String
  deriving DecidableEq, Repr

/-- `ExcellonParser.__init__` (excellon.py:380-401) with externally defined tools (numbers and
tools; the tools become objects `0, 1, ...`). -/
def PState.init (settings : Option FileSettings) (ext : List (ℤ × Tool)) : PState where
  notation_ := match settings with | some s => s.notation_ | none => "absolute"
  units := match settings with | some s => s.units | none => "inch"
  zeros := match settings with | some s => s.zeros | none => "leading"
  format := match settings with | some s => [s.format.1, s.format.2] | none => [2, 4]
  state := "INIT"
  statements := []
  heap := ext.map (·.2)
  tools := []
  ext := ext.mapIdx fun i x => (x.1, i)
  comments := []
  hits := []
  active := none
  pos := (0, 0)
  down := false
  prev := []
  plated := none

/-- `_settings` (excellon.py:749-751). -/
def PState.settings (s : PState) : PyR FileSettings :=
  FileSettings.init s.notation_ s.units none s.format (some s.zeros) "degrees"

/-- Append a statement (excellon.py:453). -/
def PState.add (s : PState) (k : Kind) : PState :=
  { s with statements := s.statements ++ [⟨"inch", k⟩] }

/-- Append a hit (excellon.py:743). -/
def PState.addHit (s : PState) (h : Hit) : PState := { s with hits := s.hits ++ [h] }

/-- Assign `tool.settings` of object `r` (excellon.py:786). -/
def setToolSettings (heap : List Tool) (r : ℕ) (st : FileSettings) : List Tool :=
  heap.modify r fun t => { t with settings := some st }

/-- `_get_tool` (excellon.py:780-795). -/
def PState.getTool (s : PState) (id : ℤ) : PyR (Option ℕ × PState) :=
  match dictGet s.tools id with
  | some r => .ok (some r, s)
  | none =>
    match dictGet s.comments id with
    | some r => do
      let st ← s.settings
      .ok (some r, { s with heap := setToolSettings s.heap r st, tools := dictSet s.tools id r })
    | none => match dictGet s.ext id with
      | some r => do
        let st ← s.settings
        .ok (some r, { s with heap := setToolSettings s.heap r st, tools := dictSet s.tools id r })
      | none => .ok (none, s)

/-- `self.active_tool._hit()` (excellon_statements.py:250-251). -/
def PState.countHit (s : PState) : PyR PState :=
  match s.active with
  | none => .error .attributeError
  | some r => .ok { s with heap := s.heap.modify r fun t => { t with hitCount := t.hitCount + 1 } }

/-- `if not self.active_tool: self.active_tool = self._get_tool(1)`
(excellon.py:582-583, 706-707, 732-733, 740-741). -/
def PState.needTool (s : PState) : PyR PState :=
  match s.active with
  | some _ => .ok s
  | none => do
    let (r, s) ← s.getTool 1
    .ok { s with active := r }

/-- The effect of coordinates on the position (excellon.py:537-546, 567-576, 694-703, 720-729). -/
def move (notation_ : String) (pos : ℚ × ℚ) (x y : Option ℚ) : ℚ × ℚ :=
  if notation_ = "absolute" then
    (match x with | some x => x | none => pos.1, match y with | some y => y | none => pos.2)
  else
    (match x with | some x => pos.1 + x | none => pos.1,
     match y with | some y => pos.2 + y | none => pos.2)

/-- Both coordinates of a position (excellon.py:743). -/
def both (p : ℚ × ℚ) : Option ℚ × Option ℚ := (some p.1, some p.2)

/-- `tuple([int(x) for x in comment.split('=')[1].split(":")])` (excellon.py:457-458, 837-839).
Negative numbers are rejected here; the code accepts them. -/
def commentFormat (text : Str) : PyR (List ℕ) := do
  let w ← pyIdx (splitOn '=' text) 1
  (splitOn ':' w).mapM fun x => do
    let n ← pyInt x
    if n < 0 then .error .valueError else .ok n.toNat

/-- A `FILE_FORMAT` comment (excellon.py:456-459). -/
def PState.commentLineFormat (s : PState) (text : Str) : PyR PState :=
  if isInfix "FILE_FORMAT".toList text then do
    let f ← commentFormat text
    .ok (if f ≠ [] then { s with format := f } else s)
  else .ok s

/-- The comments on plating (excellon.py:461-466). -/
def PState.commentLinePlating (s : PState) (text : Str) : PState :=
  { s with plated :=
      if isInfix "TYPE=NON_PLATED".toList text then some "nonplated"
      else if isInfix "TYPE=PLATED".toList text then some "plated" else s.plated }

/-- A comment line (excellon.py:451-478).  `tools.keys()[0]` is a `TypeError` in Python 3, so that
`_add_comment_tool` is never reached. -/
def PState.commentLine (s : PState) (line : Str) : PyR PState := do
  let text := lstripBy (· == ';') line
  let s ← (s.add (.comment text)).commentLineFormat text
  let s := s.commentLinePlating text
  let s := { s with state := if isInfix "HEADER:".toList text then "HEADER" else s.state }
  if isInfix " Holesize ".toList text then do
    let s := { s with state := "HEADER" }
    let st ← s.settings
    let ts ← toolDefs st.units text
    if ts.length = 1 then .error .typeError else .ok s
  else .ok s

/-- `M00` while drilling (excellon.py:491-499). -/
def PState.nextTool (s : PState) : PyR PState :=
  match s.active with
  | none => .error .exception
  | some r => do
    let t ← pyIdx s.heap r
    let (n, s) ← s.getTool (t.number + 1)
    let s := s.add (.nextTool (some r) n)
    .ok { s with active := n }

/-- `G00` with coordinates (excellon.py:528-546). -/
def PState.rout (s : PState) (line : Str) : PyR PState := do
  let s := { s.add .routeMode with state := "ROUT" }
  let st ← s.settings
  let (x, y) ← coords (line.drop 3) st
  let s := s.add (.coord x y (some "ROUT"))
  .ok { s with pos := move s.notation_ s.pos x y }

/-- `G01` with coordinates (excellon.py:555-586). -/
def PState.linear (s : PState) (line : Str) : PyR PState := do
  let s := { s.add .routeMode with state := "LINEAR" }
  let st ← s.settings
  let (x, y) ← coords (line.drop 3) st
  let start := s.pos
  let s := s.add (.coord x y (some "LINEAR"))
  let s := { s with pos := move s.notation_ s.pos x y }
  if s.down then do
    let s ← s.needTool
    let s := s.addHit (.slot s.active (both start) (both s.pos) false)
    s.countHit
  else .ok s

/-- `_merge_properties` (excellon.py:767-778). -/
def PState.mergeProperties (s : PState) (t : Tool) : Tool :=
  if t.plated = none then
    match dictGet s.ext t.number with
    | some r => match s.heap[r]? with
      | some e => { t with plated := e.plated }
      | none => t
    | none => t
  else t

/-- A tool line in the header (excellon.py:637-644). -/
def PState.defineTool (s : PState) (line : Str) : PyR PState :=
  if !isInfix ",OFF".toList line && !isInfix ",ON".toList line then do
    let st ← s.settings
    let t ← Tool.fromExcellon line st s.plated
    let t := s.mergeProperties t
    let r := s.heap.length
    .ok ({ s with heap := s.heap ++ [t], tools := dictSet s.tools t.number r }.add (.tool r))
  else .ok (s.add (.unknown line))

/-- Is the statement a tool selection or a tool (excellon.py:668)? -/
def isToolStmt (s : Stmt) : Bool :=
  match s.kind with
  | .toolSel _ _ => true
  | .tool _ => true
  | _ => false

/-- Insert before the first tool selection or tool (excellon.py:667-670). -/
def insertTool (x : Stmt) : List Stmt → List Stmt
  | [] => []
  | s :: l => if isToolStmt s then x :: s :: l else s :: insertTool x l

/-- Diameter of a tool that was never defined (excellon.py:656-659). -/
def defaultDiameter (units : String) (n : ℤ) : ℚ :=
  if units = "inch" then (16 + 8 * n) / 1000 else metric ((16 + 8 * n) / 1000)

/-- A tool line outside the header (excellon.py:646-672). -/
def PState.selectTool (s : PState) (line : Str) : PyR PState := do
  match ← toolSelFrom line with
  | .toolSel n c =>
    let s := s.add (.toolSel n c)
    if n = 0 then .ok s
    else do
      let (r, s) ← s.getTool n
      match r with
      | some r => .ok { s with active := some r }
      | none => do
        let st ← s.settings
        let t : Tool := { settings := some st, number := n,
                          diameter := some (defaultDiameter st.units n) }
        let r := s.heap.length
        .ok { s with
          heap := s.heap ++ [t]
          tools := dictSet s.tools n r
          statements := insertTool ⟨"inch", .tool r⟩ s.statements
          active := some r }
  | _ => .ok s

/-- The loop of a repeat command (excellon.py:677-681). -/
def PState.repeatHole (dx dy : ℚ) : ℕ → PState → PyR PState
  | 0, s => .ok s
  | n + 1, s => do
    let s := { s with pos := (s.pos.1 + dx, s.pos.2 + dy) }
    let s := s.addHit (.hole s.active s.pos)
    let s ← s.countHit
    s.repeatHole dx dy n

/-- A repeat command (excellon.py:674-681). -/
def PState.repeatLine (s : PState) (line : Str) : PyR PState := do
  let st ← s.settings
  match ← repFrom line st with
  | .rep n dx dy => (s.add (.rep n dx dy)).repeatHole (dx.getD 0) (dy.getD 0) n.toNat
  | _ => .ok s

/-- A slot line (excellon.py:684-710). -/
def PState.slotLine (s : PState) (line : Str) : PyR PState := do
  let st ← s.settings
  match ← slotFrom line st with
  | .slot x1 y1 x2 y2 => do
    let s := s.add (.slot x1 y1 x2 y2)
    let s := { s with pos := move s.notation_ s.pos x2 y2 }
    if s.state = "DRILL" ∨ s.state = "HEADER" then do
      let s ← s.needTool
      let s := s.addHit (.slot s.active (x1, y1) (x2, y2) true)
      s.countHit
    else .ok s
  | _ => .ok s

/-- A coordinate line (excellon.py:711-744). -/
def PState.coordLine (s : PState) (line : Str) : PyR PState := do
  let st ← s.settings
  let (x, y) ← coords line st
  let start := s.pos
  let s := s.add (.coord x y none)
  let s := { s with pos := move s.notation_ s.pos x y }
  if s.state = "LINEAR" ∧ s.down then do
    let s ← s.needTool
    .ok (s.addHit (.slot s.active (both start) (both s.pos) false))
  else if s.state = "DRILL" ∨ s.state = "HEADER" then do
    let s ← s.needTool
    let s := s.addHit (.hole s.active s.pos)
    s.countHit
  else .ok s

/-- Does the line begin with the text? (excellon.py:451) -/
def startsWith (t line : Str) : Bool := t.isPrefixOf line

/-- A unit line (excellon.py:593-599). -/
def PState.unitLine (s : PState) (line : Str) : PState :=
  match unitFrom line with
  | ⟨u, .unit z f⟩ =>
    { s with
      units := u
      zeros := z
      format := match f with | some f => [f.1, f.2] | none => s.format
      statements := s.statements ++ [⟨u, .unit z f⟩] }
  | _ => s

/-- A rewind-stop line (excellon.py:484-489). -/
def PState.rewindLine (s : PState) : PState :=
  { s.add .rewindStop with state :=
      if s.state = "HEADER" then "DRILL" else if s.state = "INIT" then "HEADER" else s.state }

/-- The last branches of `_parse_line` (excellon.py:637-747). -/
def PState.dispatchTools (s : PState) (line : Str) : PyR PState :=
  let is (t : String) : Bool := startsWith t.toList line
  if is "T" && decide (s.state = "HEADER") then s.defineTool line
  else if is "T" then s.selectTool line
  else if is "R" && decide (s.state ≠ "HEADER") then s.repeatLine line
  else if is "X" || is "Y" then
    if isInfix "G85".toList line then s.slotLine line else s.coordLine line
  else .ok (s.add (.unknown line))

/-- The branches about units, notation and formats (excellon.py:593-635). -/
def PState.dispatchSettings (s : PState) (line : Str) : PyR PState :=
  let is (t : String) : Bool := startsWith t.toList line
  if isInfix "INCH".toList line || isInfix "METRIC".toList line then .ok (s.unitLine line)
  else if is "M71" || is "M72" then do
    let m ← measuringFrom line
    .ok { s with units := m.units, statements := s.statements ++ [m] }
  else if is "ICI" then
    match incrFrom line with
    | .incr m => .ok { s.add (.incr m) with notation_ := if m = "on" then "incremental" else "absolute" }
    | _ => .ok s
  else if is "VER" then do
    let k ← versionFrom line
    .ok (s.add k)
  else if is "FMAT" then do
    let f ← oneOrTwo line
    .ok { s.add (.format f) with format := [f.toNat, (6 - f).toNat] }
  else if is "G40" then .ok (s.add .cutterOff)
  else if is "G41" then .ok (s.add .cutterLeft)
  else if is "G42" then .ok (s.add .cutterRight)
  else if is "G90" then .ok { s.add .absMode with notation_ := "absolute" }
  else if is "F" then do
    let k ← infeedFrom line
    .ok (s.add k)
  else s.dispatchTools line

/-- The branches of `_parse_line` after the blank-line test (excellon.py:451-747). -/
def PState.dispatch (s : PState) (line : Str) : PyR PState :=
  let is (t : String) : Bool := startsWith t.toList line
  if is ";" then s.commentLine line
  else if is "M48" then .ok { s.add .headerBegin with state := "HEADER" }
  else if is "%" then .ok s.rewindLine
  else if is "M00" && decide (s.state = "DRILL") then s.nextTool
  else if is "M95" then
    .ok { s.add .headerEnd with state := if s.state = "HEADER" then "DRILL" else s.state }
  else if is "M15" then .ok { s.add .zRout with down := true }
  else if is "M16" then .ok { s.add .retractClamp with down := false }
  else if is "M17" then .ok { s.add .retractNoClamp with down := false }
  else if is "M30" then do
    let st ← s.settings
    let k ← endFrom line st
    .ok (s.add k)
  else if is "G00" then
    if strip line = "G00".toList then .ok { s with prev := line } else s.rout line
  else if is "G01" then
    if strip line = "G01".toList then .ok { s with prev := line } else s.linear line
  else if is "G05" then .ok { s.add .drillMode with down := false, state := "DRILL" }
  else s.dispatchSettings line

/-- `_parse_line` (excellon.py:441-747); the argument is already stripped. -/
def PState.parseLine (s : PState) (line : Str) : PyR PState :=
  let line := s.prev ++ line
  let s := { s with prev := [] }
  if strip line = [] then .ok s else s.dispatch line

/-- All lines (excellon.py:434-435). -/
def PState.run (s : PState) (lines : List Str) : PyR PState :=
  lines.foldlM (fun s l => s.parseLine (strip l)) s

/-- State of an `ExcellonFile` (excellon.py:200-205). -/
structure XFile where
  statements : List Stmt
  heap : List Tool
  tools : List (ℤ × ℕ)
  hits : List Hit
  cam : CamFile
  deriving DecidableEq, Repr

/-- The end of `parse_raw` (excellon.py:436-439): every statement gets the final units. -/
def PState.finish (s : PState) : PyR XFile := do
  let st ← s.settings
  .ok ⟨s.statements.map fun x => ⟨s.units, x.kind⟩, s.heap, s.tools, s.hits, CamFile.init (some st)⟩

/-- `ExcellonParser(settings, ext).parse_raw(data)` (excellon.py:433-439). -/
def parseRaw (settings : Option FileSettings) (ext : List (ℤ × Tool)) (data : Str) : PyR XFile := do
  let s ← (PState.init settings ext).run (pyLines data)
  s.finish

/-! ## `ExcellonFile` -/

/-- The number of the tool of a hit (`hit.tool.number`) (excellon.py:326-328). -/
def hitNumber (heap : List Tool) (h : Hit) : PyR ℤ :=
  match h.tool with
  | none => .error .attributeError
  | some r => (pyIdx heap r).map (·.number)

/-- A line of a hit of tool number `n` (excellon.py:276-279): nothing for other tools; slots have no
`position`. -/
def writeHit (heap : List Tool) (st : FileSettings) (n : ℤ) (h : Hit) : PyR Str := do
  let m ← hitNumber heap h
  if m = n then
    match h with
    | .hole _ p => do
      let t ← Stmt.toExcellon (fun r => heap[r]?) st ⟨"inch", .coord (some p.1) (some p.2) none⟩
      .ok (t ++ ['\n'])
    | .slot _ _ _ _ => .error .attributeError
  else .ok []

/-- The section of one tool (excellon.py:274-279). -/
def writeTool (f : XFile) (st : FileSettings) (r : ℕ) : PyR Str := do
  let t ← pyIdx f.heap r
  let sel ← Stmt.toExcellon (fun r => f.heap[r]?) st ⟨"inch", .toolSel t.number none⟩
  let hs ← f.hits.mapM (writeHit f.heap st t.number)
  .ok (sel ++ ['\n'] ++ hs.flatten)

/-- Is the statement a tool selection? (excellon.py:262-280) -/
def isSelection (s : Stmt) : Bool :=
  match s.kind with
  | .toolSel _ _ => true
  | _ => false

/-- `ExcellonFile.write` (excellon.py:262-280): the text written. -/
def XFile.write (f : XFile) : PyR Str := do
  let st ← f.cam.settings
  let head ← (f.statements.takeWhile fun s => !isSelection s).mapM fun s =>
    (s.toExcellon (fun r => f.heap[r]?) st).map (· ++ ['\n'])
  let body ← f.tools.mapM fun t => writeTool f st t.2
  .ok (head.flatten ++ body.flatten ++ "M30\n".toList)

/-- `tool.to_inch()` / `tool.to_metric()` on object `r` (excellon.py:282-311). -/
def convertTool (u : String) (f : ℚ → ℚ) (heap : List Tool) (r : ℕ) : PyR (List Tool) := do
  let t ← pyIdx heap r
  let t ← t.convert u f
  .ok (heap.set r t)

/-- Conversion of the statements (excellon.py:287-288, 301-302): tools are shared objects. -/
def convertStmts (from_ to_ : String) (f : ℚ → ℚ) :
    List Stmt → List Tool → PyR (List Stmt × List Tool)
  | [], h => .ok ([], h)
  | s :: l, h => do
    let h ← match s.kind with
      | .tool r => convertTool to_ f h r
      | _ => .ok h
    let s := match s.kind with
      | .tool _ => s
      | _ => s.convert from_ to_ f
    let (l, h) ← convertStmts from_ to_ f l h
    .ok (s :: l, h)

/-- `DrillHit.to_metric` / `DrillSlot.to_metric` (and `to_inch`; excellon.py:102-110, 143-153): the
tool is converted as well, and a tool already in the new units stops the conversion of the hit.
A slot with a missing coordinate is a `TypeError`. -/
def convertHit (from_ to_ : String) (f : ℚ → ℚ) (heap : List Tool) (h : Hit) :
    PyR (Hit × List Tool) := do
  let r ← match h.tool with
    | none => .error .attributeError
    | some r => .ok r
  let t ← pyIdx heap r
  match t.settings with
  | none => .error .attributeError
  | some st =>
    if st.units = from_ then do
      let heap ← convertTool to_ f heap r
      match h with
      | .hole t p => .ok (.hole t (f p.1, f p.2), heap)
      | .slot t (some a, some b) (some c, some d) k =>
        .ok (.slot t (some (f a), some (f b)) (some (f c), some (f d)) k, heap)
      | .slot _ _ _ _ => .error .typeError
    else .ok (h, heap)

/-- The loop over the hits (excellon.py:309-310). -/
def convertHits (from_ to_ : String) (f : ℚ → ℚ) :
    List Hit → List Tool → PyR (List Hit × List Tool)
  | [], h => .ok ([], h)
  | x :: l, h => do
    let (x, h) ← convertHit from_ to_ f h x
    let (l, h) ← convertHits from_ to_ f l h
    .ok (x :: l, h)

/-- `ExcellonFile.to_inch` (excellon.py:282-295). -/
def XFile.toInch (f : XFile) : PyR XFile :=
  if f.cam.units ≠ "inch" then do
    let (l, h) ← convertStmts "metric" "inch" inch f.statements f.heap
    let h ← f.tools.foldlM (fun h t => convertTool "inch" inch h t.2) h
    .ok { f with statements := l, heap := h, cam := { f.cam with units := "inch" } }
  else .ok f

/-- `ExcellonFile.to_metric` (excellon.py:297-311). -/
def XFile.toMetric (f : XFile) : PyR XFile :=
  if f.cam.units ≠ "metric" then do
    let (l, h) ← convertStmts "inch" "metric" metric f.statements f.heap
    let h ← f.tools.foldlM (fun h t => convertTool "metric" metric h t.2) h
    let (hits, h) ← convertHits "inch" "metric" metric f.hits h
    .ok { f with statements := l, heap := h, hits := hits, cam := { f.cam with units := "metric" } }
  else .ok f

/-- `DrillHit.offset`, `DrillSlot.offset` (excellon.py:123-124, 166-168); a missing coordinate is a
`TypeError`. -/
def Hit.offset (dx dy : ℚ) : Hit → PyR Hit
  | .hole t p => .ok (.hole t (p.1 + dx, p.2 + dy))
  | .slot t (some a, some b) (some c, some d) k =>
    .ok (.slot t (some (a + dx), some (b + dy)) (some (c + dx), some (d + dy)) k)
  | .slot _ _ _ _ => .error .typeError

/-- `ExcellonFile.offset` (excellon.py:313-319).  The primitives are generated for the occasion and
thrown away; generating them fails for hits without tool (which of several errors comes first is not
modelled). -/
def XFile.offset (dx dy : ℚ) (f : XFile) : PyR XFile := do
  if f.hits.any (fun h => h.tool.isNone) then .error .attributeError
  else
    let hits ← f.hits.mapM (Hit.offset dx dy)
    .ok { f with statements := f.statements.map (Stmt.offset dx dy), hits := hits }

/-- `ExcellonFile.hit_count()` (excellon.py:341-348): number to count. -/
def XFile.hitCounts (f : XFile) : PyR (List (ℤ × ℕ)) :=
  f.tools.foldlM (fun d t => do
    let t ← pyIdx f.heap t.2
    .ok (dictSet d t.number t.hitCount)) []

/-- `ExcellonFile.hit_count(n)` (excellon.py:341-348). -/
def XFile.hitCount (f : XFile) (n : ℤ) : PyR (Option ℕ) := (f.hitCounts).map (dictGet · n)

/-! ## Bounding box -/

/-- `tool.diameter / 2.` (excellon.py:113-121) -/
def hitRadius (heap : List Tool) (h : Hit) : PyR ℚ := do
  match h.tool with
  | none => .error .attributeError
  | some r =>
    let t ← pyIdx heap r
    match t.diameter with
    | none => .error .typeError
    | some d => .ok (d / 2)

/-- `hit.bounding_box` (excellon.py:112-121, 155-164). -/
def hitBox (heap : List Tool) (h : Hit) : PyR ((ℚ × ℚ) × (ℚ × ℚ)) := do
  let r ← hitRadius heap h
  match h with
  | .hole _ p => .ok ((p.1 - r, p.1 + r), (p.2 - r, p.2 + r))
  | .slot _ (some a, some b) (some c, some d) _ =>
    .ok ((min a c - r, max a c + r), (min b d - r, max b d + r))
  | .slot _ _ _ _ => .error .typeError

/-- `ExcellonFile.bounding_box` (excellon.py:224-234). -/
def XFile.boundingBox (f : XFile) : PyR ((ℚ × ℚ) × (ℚ × ℚ)) :=
  f.hits.foldlM (fun b h => do
    let x ← hitBox f.heap h
    .ok ((min x.1.1 b.1.1, max x.1.2 b.1.2), (min x.2.1 b.2.1, max x.2.2 b.2.2)))
    ((100000000000, -100000000000), (100000000000, -100000000000))

/-! ## Format detection -/

/-- `math.pi`, the double (excellon.py:864). -/
def mathPi : ℚ := 884279719003555 / 281474976710656

/-- A candidate: format and zeros (excellon.py:855). -/
abbrev Key := List ℕ × String

/-- `size`, `hole_count`, `hole_area` of a candidate (excellon.py:860-865). -/
abbrev Measure := (ℚ × ℚ) × ℕ × ℚ

/-- `_layer_size_score` (excellon.py:893-904). -/
def layerSizeScore (m : Measure) : ℚ :=
  let board := m.1.1 * m.1.2
  if board = 0 then 0
  else (m.2.2 / board - 1 / 4) ^ 2 * (board - 8) ^ 2

/-- The measures of a parsed candidate (excellon.py:859-865). -/
def measure (f : XFile) : PyR Measure := do
  let b ← f.boundingBox
  let area ← f.hits.foldlM (fun a h => do
    let r ← hitRadius f.heap h
    .ok (a + (mathPi * r) ^ 2)) 0
  .ok ((b.1.1 - b.1.2, b.2.1 - b.2.2), f.hits.length, area)

/-- One candidate (excellon.py:855-867): `none` if the file cannot be read with it.  Making the
settings is outside of the `try`. -/
def candidate (data : Str) (k : Key) : PyR (Option (Key × Measure)) := do
  let st ← FileSettings.init "absolute" "inch" none k.1 (some k.2) "degrees"
  .ok (match parseRaw (some st) [] data >>= measure with
    | .ok m => some (k, m)
    | .error _ => none)

/-- The brute force loop (excellon.py:853-867): the table of the candidates that can be parsed. -/
def candidates (data : Str) (keys : List Key) : PyR (List (Key × Measure)) := do
  let l ← keys.mapM (candidate data)
  .ok (l.filterMap id)

/-- The only element of `set(l)`, if it has one (excellon.py:870-875), or what is known already. -/
def onlyOne {α : Type} [DecidableEq α] (l : List α) (known : Option α) : Option α :=
  match l.dedup with
  | [a] => some a
  | _ => known

/-- The first candidate with the least score (excellon.py:882-890); `min` of nothing is a
`ValueError`. -/
def pickByScore (results : List (Key × Measure)) : PyR Key :=
  match (results.map fun r => layerSizeScore r.2).min? with
  | none => .error .valueError
  | some m => match results.find? fun r => layerSizeScore r.2 = m with
    | some r => .ok r.1
    | none => .error .typeError

/-- The decision (excellon.py:869-890). -/
def decideFormat (fmt : Option (List ℕ)) (zeros : Option String) (results : List (Key × Measure)) :
    PyR Key :=
  match onlyOne (results.map fun r => r.1.1) fmt, onlyOne (results.map fun r => r.1.2) zeros with
  | some f, some z => .ok (f, z)
  | _, _ => pickByScore results

/-- The zeros of the unit statements (excellon.py:829-830). -/
def zeroStatements (l : List Stmt) : List String :=
  l.filterMap fun s => match s.kind with
    | .unit z _ => some z
    | _ => none

/-- The format comments (excellon.py:833-835). -/
def formatComments (l : List Stmt) : List Str :=
  l.filterMap fun s => match s.kind with
    | .comment t => if isInfix "FILE_FORMAT".toList t then some t else none
    | _ => none

/-- The format of the format comment, if there is exactly one (excellon.py:837-839). -/
def hintFormat (l : List Stmt) : PyR (Option (List ℕ)) :=
  match formatComments l with
  | [t] => (commentFormat t).map some
  | _ => .ok none

/-- The zeros of the unit statement, if there is exactly one (excellon.py:840). -/
def hintZeros (l : List Stmt) : Option String :=
  match zeroStatements l with
  | [z] => some z
  | _ => none

/-- `zeros_options` (excellon.py:815, 849-850). -/
def zerosOptions : Option String → List String
  | some z => [z]
  | none => ["leading", "trailing"]

/-- `format_options` (excellon.py:816, 847-848). -/
def formatOptions : Option (List ℕ) → List (List ℕ)
  | some f => [f]
  | none => [[2, 4], [2, 5], [3, 3]]

/-- The candidates to try (excellon.py:853-855). -/
def candidateKeys (fmt : Option (List ℕ)) (zeros : Option String) : List Key :=
  (zerosOptions zeros).flatMap fun z => (formatOptions fmt).map fun f => (f, z)

/-- `detect_excellon_format(data)` (excellon.py:797-890). -/
def detectFormat (data : Str) : PyR Key := do
  let f ← parseRaw none [] data
  let fmt ← hintFormat f.statements
  match fmt, hintZeros f.statements with
  | some f, some z => .ok (f, z)
  | fmt, zeros => do
    let results ← candidates data (candidateKeys fmt zeros)
    decideFormat fmt zeros results

/-- `loads(data, settings=settings, tools=tools)` (excellon.py:62-84). -/
def loads (data : Str) (settings : Option FileSettings) (ext : List (ℤ × Tool)) : PyR XFile := do
  let st ← match settings with
    | some st => .ok st
    | none => do
      let k ← detectFormat data
      FileSettings.init "absolute" "inch" none k.1 (some k.2) "degrees"
  parseRaw (some st) ext data

end Verif.Excellon
