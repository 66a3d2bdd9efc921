import Verif.Py.Regex
import Verif.Py.Format
import Verif.Model.Utils
import Verif.Model.Cam
import Verif.Model.GerberStmt

/-! # Excellon statements (gerber/excellon_statements.py): fields, printing, reading -/

namespace Verif.Excellon
open Verif.Py Verif.Py.Re Verif.Cam Verif.Utils

/-- State of an `ExcellonTool` (excellon_statements.py:200-213).  `settings` is the tool's own
`FileSettings` object: every tool created by the parser gets a fresh one (excellon.py:639, 661,
786, 792), so it is kept by value.  Tools built from a tool table have `settings = None`. -/
structure Tool where
  settings : Option FileSettings
  number : ℤ
  feedRate : Option ℚ := none
  retractRate : Option ℚ := none
  rpm : Option ℚ := none
  diameter : Option ℚ := none
  maxHitCount : Option ℚ := none
  depthOffset : Option ℚ := none
  plated : Option String := none
  hitCount : ℕ := 0
  deriving DecidableEq, Repr

/-- The statement classes of excellon_statements.py.  The `units` attribute every statement has is
kept in `Stmt`.  A tool is an object shared between the statement list, the tool table and the
hits, so the statement is a reference (excellon_statements.py:44-968). -/
inductive Kind
  /-- `ExcellonTool` (74-273) -/
  | tool (ref : ℕ)
  /-- `ToolSelectionStmt` (276-316) -/
  | toolSel (tool : ℤ) (comp : Option ℤ)
  /-- `NextToolSelectionStmt` (318-338) -/
  | nextTool (cur next : Option ℕ)
  /-- `ZAxisInfeedRateStmt` (340-365) -/
  | infeed (rate : ℤ)
  /-- `CoordinateStmt` (368-445) -/
  | coord (x y : Option ℚ) (mode : Option String)
  /-- `RepeatHoleStmt` (448-502) -/
  | rep (count : ℤ) (dx dy : Option ℚ)
  /-- `CommentStmt` (505-516) -/
  | comment (text : Str)
  /-- `HeaderBeginStmt` (519-525) -/
  | headerBegin
  /-- `HeaderEndStmt` (528-534) -/
  | headerEnd
  /-- `RewindStopStmt` (537-543) -/
  | rewindStop
  /-- `ZAxisRoutPositionStmt` (546-552) -/
  | zRout
  /-- `RetractWithClampingStmt` (555-561) -/
  | retractClamp
  /-- `RetractWithoutClampingStmt` (564-570) -/
  | retractNoClamp
  /-- `CutterCompensationOffStmt` (573-579) -/
  | cutterOff
  /-- `CutterCompensationLeftStmt` (582-588) -/
  | cutterLeft
  /-- `CutterCompensationRightStmt` (591-597) -/
  | cutterRight
  /-- `EndOfProgramStmt` (600-650) -/
  | endProg (x y : Option ℚ)
  /-- `UnitStmt` (653-692); its `units` is the common attribute -/
  | unit (zeros : String) (format : Option (ℕ × ℕ))
  /-- `IncrementalModeStmt` (695-708) -/
  | incr (mode : String)
  /-- `VersionStmt` (711-726) -/
  | version (v : ℤ)
  /-- `FormatStmt` (729-748) -/
  | format (f : ℤ)
  /-- `LinkToolStmt` (751-763) -/
  | link (tools : List ℤ)
  /-- `MeasuringModeStmt` (766-788); its `units` is the common attribute -/
  | measuring
  /-- `RouteModeStmt` (791-797) -/
  | routeMode
  /-- `LinearModeStmt` (800-806) -/
  | linearMode
  /-- `DrillModeStmt` (809-815) -/
  | drillMode
  /-- `AbsoluteModeStmt` (818-824) -/
  | absMode
  /-- `UnknownStmt` (827-841) -/
  | unknown (text : Str)
  /-- `SlotStmt` (844-969) -/
  | slot (x1 y1 x2 y2 : Option ℚ)
  deriving DecidableEq, Repr

/-- A statement with its `units` attribute (excellon_statements.py:53-54).  For a tool the
attribute is never read. -/
structure Stmt where
  units : String
  kind : Kind
  deriving DecidableEq, Repr

/-! ## Printing -/

/-- An optional number field: `'%s%s' % (c, write_gerber_value(v, fmt, zs))` (excellon_statements.py:221-226). -/
def field (c : Char) (fmt : ℕ × ℕ) (zs : String) : Option ℚ → PyR Str
  | none => .ok []
  | some v => match writeGerberValue v fmt zs with
    | .ok s => .ok (c :: s)
    | .error e => .error e

/-- The rpm field of `ExcellonTool.to_excellon` (excellon_statements.py:227-231). -/
def rpmField (st : FileSettings) : Option ℚ → PyR Str
  | none => .ok []
  | some v => if v < 100000 then field 'S' st.format st.zeroSuppression (some (v / 1000))
    else .ok ('S' :: fmtG 6 (v / 1000))

/-- The diameter field (excellon_statements.py:232-233). -/
def diaField (st : FileSettings) : Option ℚ → Str
  | none => []
  | some v => 'C' :: Gerber.decimalString v st.format.2 true

/-- `ExcellonTool.to_excellon(settings)` with settings given (excellon_statements.py:215-236). -/
def Tool.toExcellon (t : Tool) (st : FileSettings) : PyR Str := do
  let b ← field 'B' st.format st.zeroSuppression t.retractRate
  let f ← field 'F' st.format st.zeroSuppression t.feedRate
  let h ← field 'H' st.format st.zeroSuppression t.maxHitCount
  let s ← rpmField st t.rpm
  let z ← field 'Z' st.format st.zeroSuppression t.depthOffset
  .ok ('T' :: (fmt02 t.number ++ b ++ f ++ h ++ s ++ diaField st t.diameter ++ z))

/-- The mode prefix of `CoordinateStmt.to_excellon` (excellon_statements.py:403-407). -/
def modePrefix : Option String → Str
  | some "ROUT" => ['G', '0', '0']
  | some "LINEAR" => ['G', '0', '1']
  | _ => []

/-- A repeat step: written only if given and non-zero (excellon_statements.py:474-479). -/
def stepField (c : Char) (st : FileSettings) : Option ℚ → PyR Str
  | none => .ok []
  | some v => if v = 0 then .ok [] else field c st.format st.zeroSuppression (some v)

/-- `'/'.join(...)` (excellon_statements.py:763). -/
def joinSlash : List Str → Str
  | [] => []
  | [s] => s
  | s :: l => s ++ '/' :: joinSlash l

/-- `to_excellon(settings)` of every statement class, with settings given as `ExcellonFile.write`
does (excellon.py:269).  `tool` looks up the tools. -/
def Stmt.toExcellon (tools : ℕ → Option Tool) (st : FileSettings) (s : Stmt) : PyR Str :=
  match s.kind with
  | .tool r => match tools r with
    | some t => t.toExcellon st
    | none => .error .attributeError
  -- 312-316
  | .toolSel t c => .ok ('T' :: (fmt02 t ++ match c with | some c => fmt02 c | none => []))
  -- 336-338
  | .nextTool _ _ => .ok ['M', '0', '0']
  -- 364-365
  | .infeed r => .ok ('F' :: fmt02 r)
  -- 402-414
  | .coord x y m => do
    let x ← field 'X' st.format st.zeroSuppression x
    let y ← field 'Y' st.format st.zeroSuppression y
    .ok (modePrefix m ++ x ++ y)
  -- 472-480
  | .rep n dx dy => do
    let x ← stepField 'X' st dx
    let y ← stepField 'Y' st dy
    .ok ('R' :: (intStr n ++ x ++ y))
  | .comment t => .ok (';' :: t)
  | .headerBegin => .ok ['M', '4', '8']
  | .headerEnd => .ok ['M', '9', '5']
  | .rewindStop => .ok ['%']
  | .zRout => .ok ['M', '1', '5']
  | .retractClamp => .ok ['M', '1', '6']
  | .retractNoClamp => .ok ['M', '1', '7']
  | .cutterOff => .ok ['G', '4', '0']
  | .cutterLeft => .ok ['G', '4', '1']
  | .cutterRight => .ok ['G', '4', '2']
  -- 622-628: the settings are ignored; defaults of `write_gerber_value` (utils.py:97)
  | .endProg x y => do
    let x ← field 'X' (2, 5) "trailing" x
    let y ← field 'Y' (2, 5) "trailing" y
    .ok (['M', '3', '0'] ++ x ++ y)
  -- 681-686
  | .unit z _ => .ok ((if s.units = "inch" then "INCH".toList else "METRIC".toList) ++
      ',' :: (if z = "leading" then ['L', 'Z'] else ['T', 'Z']))
  -- 707-708
  | .incr m => .ok ("ICI,".toList ++ (if m = "off" then "OFF".toList else "ON".toList))
  | .version v => .ok ("VER,".toList ++ intStr v)
  | .format f => .ok ("FMAT,".toList ++ intStr f)
  | .link l => .ok (joinSlash (l.map intStr))
  | .measuring => .ok (if s.units = "inch" then ['M', '7', '2'] else ['M', '7', '1'])
  | .routeMode => .ok ['G', '0', '0']
  | .linearMode => .ok ['G', '0', '1']
  | .drillMode => .ok ['G', '0', '5']
  | .absMode => .ok ['G', '9', '0']
  | .unknown t => .ok t
  -- 901-920
  | .slot x1 y1 x2 y2 => do
    let a ← field 'X' st.format st.zeroSuppression x1
    let b ← field 'Y' st.format st.zeroSuppression y1
    let c ← field 'X' st.format st.zeroSuppression x2
    let d ← field 'Y' st.format st.zeroSuppression y2
    .ok (a ++ b ++ ['G', '8', '5'] ++ c ++ d)

/-! ## Reading -/

/-- `parse_gerber_value(v, settings.format, settings.zero_suppression)` (excellon_statements.py:384-388). -/
def value (st : FileSettings) (v : Str) : PyR ℚ := parseGerberValue v st.format st.zeroSuppression

/-- A letter of `[BCFHSTZ]` (excellon_statements.py:155). -/
def isCmd (c : Char) : Bool := ['B', 'C', 'F', 'H', 'S', 'T', 'Z'].contains c

/-- `pairwise(re.split('([BCFHSTZ])', line)[1:])` (excellon_statements.py:155, 971-979): each
command letter with the text up to the next one; text before the first letter is dropped. -/
def commands : Str → List (Char × Str)
  | [] => []
  | c :: s => if isCmd c then (c, s.takeWhile fun x => !isCmd x) :: commands s else commands s

/-- One iteration of the loop of `ExcellonTool.from_excellon` (excellon_statements.py:160-174). -/
def Tool.command (st : FileSettings) (t : Tool) (cv : Char × Str) : PyR Tool :=
  if cv.1 = 'B' then (value st cv.2).map fun v => { t with retractRate := some v }
  else if cv.1 = 'C' then (value st cv.2).map fun v => { t with diameter := some v }
  else if cv.1 = 'F' then (value st cv.2).map fun v => { t with feedRate := some v }
  else if cv.1 = 'H' then (value st cv.2).map fun v => { t with maxHitCount := some v }
  else if cv.1 = 'S' then (value st cv.2).map fun v => { t with rpm := some (1000 * v) }
  else if cv.1 = 'T' then (pyInt cv.2).map fun n => { t with number := n }
  else if cv.1 = 'Z' then (value st cv.2).map fun v => { t with depthOffset := some v }
  else .ok t

/-- `ExcellonTool.from_excellon` (excellon_statements.py:138-179).  The parser calls it on lines
that begin with `T`, so the number is always set; for other lines the code leaves it `None`, here
`0`. -/
def Tool.fromExcellon (line : Str) (st : FileSettings) (plated : Option String) : PyR Tool :=
  (commands line).foldlM (fun t cv => t.command st cv)
    { settings := some st, number := 0, plated := plated }

/-- `ToolSelectionStmt.from_excellon` (excellon_statements.py:278-302). -/
def toolSelFrom (line : Str) : PyR Kind :=
  let l := line.drop 1
  if l.length ≤ 3 then (pyInt l).map fun t => .toolSel t none
  else do
    let t ← pyInt (l.take 2)
    let c ← pyInt (l.drop 2)
    .ok (.toolSel t (some c))

/-- `ZAxisInfeedRateStmt.from_excellon` (excellon_statements.py:342-358). -/
def infeedFrom (line : Str) : PyR Kind := (pyInt (line.drop 1)).map .infeed

/-- The coordinates of `CoordinateStmt.from_excellon` (excellon_statements.py:379-391) and of
`SlotStmt.parse_sub_coords` (874-890); the two bodies are the same. -/
def coords (line : Str) (st : FileSettings) : PyR (Option ℚ × Option ℚ) :=
  match line with
  | [] => .error .indexError
  | c :: _ =>
    if c = 'X' then
      match splitOn 'Y' (stripBy (· == 'X') line) with
      | [x] => do
        let x ← value st x
        .ok (some x, none)
      | [x, y] => do
        let x ← value st x
        let y ← value st y
        .ok (some x, some y)
      | x :: _ => do
        let x ← value st x
        .ok (some x, none)
      | [] => .error .indexError
    else do
      let y ← value st (stripBy (fun c => c == ' ' || c == 'Y') line)
      .ok (none, some y)

/-- `CoordinateStmt.from_excellon` (excellon_statements.py:378-394). -/
def coordFrom (line : Str) (st : FileSettings) : PyR Kind :=
  (coords line st).map fun c => .coord c.1 c.2 none

/-- `[+\-]?\d*\.?\d*` (excellon_statements.py:452-453). -/
def reStep : Re := cat [opt (.chr (['+', '-'].contains ·)), .star isDig, opt (lit '.'), .star isDig]

/-- Regular expression of `RepeatHoleStmt` (excellon_statements.py:452-453). -/
def reRepeat : Re := cat [lit 'R', .grp "rcount" (.star isDig), opt (lit 'X'),
  opt (.grp "xdelta" reStep), opt (lit 'Y'), opt (.grp "ydelta" reStep)]

/-- A captured number: `None` if empty (excellon_statements.py:456-461, 607-612). -/
def captured (st : FileSettings) (cs : Caps) (n : String) : PyR (Option ℚ) :=
  match cs.get n with
  | some [] => .ok none
  | some s => (value st s).map some
  | none => .error .typeError

/-- `RepeatHoleStmt.from_excellon` (excellon_statements.py:450-464). -/
def repFrom (line : Str) (st : FileSettings) : PyR Kind :=
  match reRepeat.pyMatch line with
  | none => .error .attributeError
  | some (cs, _) => do
    let n ← pyInt ((cs.get "rcount").getD [])
    let x ← captured st cs "xdelta"
    let y ← captured st cs "ydelta"
    .ok (.rep n x y)

/-- `CommentStmt.from_excellon` (excellon_statements.py:507-509). -/
def commentFrom (line : Str) : Kind := .comment (lstripBy (· == ';') line)

/-- `\d*\.?\d*` (excellon_statements.py:452-453). -/
def reUStep : Re := cat [.star isDig, opt (lit '.'), .star isDig]

/-- Regular expression of `EndOfProgramStmt` (excellon_statements.py:604-605). -/
def reEnd : Re := cat [lit 'M', lit '3', lit '0', opt (lit 'X'), opt (.grp "x" reUStep),
  opt (lit 'Y'), opt (.grp "y" reUStep)]

/-- `EndOfProgramStmt.from_excellon` (excellon_statements.py:602-615). -/
def endFrom (line : Str) (st : FileSettings) : PyR Kind :=
  match reEnd.pyMatch line with
  | none => .error .attributeError
  | some (cs, _) => do
    let x ← captured st cs "x"
    let y ← captured st cs "y"
    .ok (.endProg x y)

/-- `UnitStmt.from_excellon` (excellon_statements.py:661-673). -/
def unitFrom (line : Str) : Stmt :=
  ⟨if isInfix "INCH".toList line then "inch" else "metric",
   .unit (if isInfix "LZ".toList line then "leading" else "trailing")
    (if isInfix "0000.00".toList line then some (4, 2)
     else if isInfix "000.000".toList line then some (3, 3)
     else if isInfix "00.0000".toList line then some (2, 4)
     else none)⟩

/-- `IncrementalModeStmt.from_excellon` (excellon_statements.py:697-705). -/
def incrFrom (line : Str) : Kind := .incr (if isInfix "OFF".toList line then "off" else "on")

/-- `int(line.split(',')[1])`, which must be 1 or 2 (excellon_statements.py:713-723, 731-741). -/
def oneOrTwo (line : Str) : PyR ℤ := do
  let w ← pyIdx (splitOn ',' line) 1
  let v ← pyInt w
  if v = 1 ∨ v = 2 then .ok v else .error .valueError

/-- `VersionStmt.from_excellon` (excellon_statements.py:711-723). -/
def versionFrom (line : Str) : PyR Kind := (oneOrTwo line).map .version

/-- `FormatStmt.from_excellon` (excellon_statements.py:729-741). -/
def formatFrom (line : Str) : PyR Kind := (oneOrTwo line).map .format

/-- `LinkToolStmt.from_excellon` (excellon_statements.py:753-756). -/
def linkFrom (line : Str) : PyR Kind := ((splitOn '/' line).mapM pyInt).map .link

/-- `MeasuringModeStmt.from_excellon` (excellon_statements.py:768-772). -/
def measuringFrom (line : Str) : PyR Stmt :=
  if !(isInfix "M71".toList line || isInfix "M72".toList line) then .error .valueError
  else .ok ⟨if isInfix "M72".toList line then "inch" else "metric", .measuring⟩

/-- `SlotStmt.from_excellon` (excellon_statements.py:856-871). -/
def slotFrom (line : Str) (st : FileSettings) : PyR Kind := do
  let parts := splitStr "G85".toList line
  let a ← pyIdx parts 0
  let (x1, y1) ← coords a st
  let b ← pyIdx parts 1
  let (x2, y2) ← coords b st
  .ok (.slot x1 y1 (if x2 = none then x1 else x2) (if y2 = none then y1 else y2))

/-! ## Unit conversion and moving -/

/-- `ExcellonTool.to_inch` / `to_metric` (excellon_statements.py:238-248); `AttributeError` if the
tool has no settings. -/
def Tool.convert (u : String) (f : ℚ → ℚ) (t : Tool) : PyR Tool :=
  match t.settings with
  | none => .error .attributeError
  | some st =>
    if st.units ≠ u then
      .ok { t with settings := some { st with units := u }, diameter := t.diameter.map f }
    else .ok t

/-- Conversion of the numbers of a statement if its units are `from_` (excellon_statements.py:
416-430, 482-496, 630-644, 922-944); the other classes only set `units` (excellon_statements.py:61-65, 688-692,
784-788).  A tool is converted through `Tool.convert`. -/
def Stmt.convert (from_ to_ : String) (f : ℚ → ℚ) (s : Stmt) : Stmt :=
  match s.kind with
  | .coord x y m => if s.units = from_ then ⟨to_, .coord (x.map f) (y.map f) m⟩ else s
  | .rep n x y => if s.units = from_ then ⟨to_, .rep n (x.map f) (y.map f)⟩ else s
  | .endProg x y => if s.units = from_ then ⟨to_, .endProg (x.map f) (y.map f)⟩ else s
  | .slot a b c d =>
    if s.units = from_ then ⟨to_, .slot (a.map f) (b.map f) (c.map f) (d.map f)⟩ else s
  | k => ⟨to_, k⟩

/-- `to_inch` of a statement that is not a tool (excellon_statements.py:61-62). -/
def Stmt.toInch (s : Stmt) : Stmt := s.convert "metric" "inch" inch

/-- `to_metric` of a statement that is not a tool (excellon_statements.py:64-65). -/
def Stmt.toMetric (s : Stmt) : Stmt := s.convert "inch" "metric" metric

/-- `ExcellonTool.to_inch` (excellon_statements.py:238-242). -/
def Tool.toInch (t : Tool) : PyR Tool := t.convert "inch" inch

/-- `ExcellonTool.to_metric` (excellon_statements.py:244-248). -/
def Tool.toMetric (t : Tool) : PyR Tool := t.convert "metric" metric

/-- `offset` (excellon_statements.py:432-436, 646-650, 946-954); a no-op for the other classes
(67-68). -/
def Stmt.offset (dx dy : ℚ) (s : Stmt) : Stmt :=
  match s.kind with
  | .coord x y m => ⟨s.units, .coord (x.map (· + dx)) (y.map (· + dy)) m⟩
  | .endProg x y => ⟨s.units, .endProg (x.map (· + dx)) (y.map (· + dy))⟩
  | .slot a b c d =>
    ⟨s.units, .slot (a.map (· + dx)) (b.map (· + dy)) (c.map (· + dx)) (d.map (· + dy))⟩
  | _ => s

end Verif.Excellon
