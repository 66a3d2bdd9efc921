import Verif.Py.Basic
import Verif.Py.Dict
import Mathlib.Data.List.Dedup

/-!
# IPC-D-356 netlists (`gerber/ipc356.py`)

Only the parser and the views of a netlist; rendering is left out.  A test record carries optional
attributes, since `IPC356_TestRecord.__init__` sets only those that the line has.
-/

namespace Verif.Ipc

open Verif.Py

/-! ## Python text functions -/

/-- A line boundary of `str.splitlines` other than carriage return (ipc356.py:172). -/
def isBreak (c : Char) : Bool :=
  c == '\n' || c == '\x0b' || c == '\x0c' || c == '\x1c' || c == '\x1d' || c == '\x1e' ||
    c == '\u0085' || c == '\u2028' || c == '\u2029'

/-- `s.splitlines()`: `cur` is the line read so far; nothing follows a final line break (ipc356.py:172). -/
def splitLinesGo (cur : Str) : Str → List Str
  | [] => if cur = [] then [] else [cur]
  | '\r' :: '\n' :: s => cur :: splitLinesGo [] s
  | c :: s => if c = '\r' ∨ isBreak c then cur :: splitLinesGo [] s else splitLinesGo (cur ++ [c]) s

/-- `s.splitlines()` (ipc356.py:172). -/
def splitLines (s : Str) : List Str := splitLinesGo [] s

/-- `s.split()`: maximal runs without white space (ipc356.py:263). -/
def words (s : Str) : List Str := (s.splitOnP isSpace).filter (· ≠ [])

/-- `' '.join(ws)` (ipc356.py:265). -/
def unwords (ws : List Str) : Str := List.intercalate [' '] ws

/-- `s[a:b]` for natural bounds (ipc356.py:294-303). -/
def slice (a b : ℕ) (s : Str) : Str := (s.take b).drop a

/-- `s.find(c)`, `None` for -1 (ipc356.py:298). -/
def findChar (c : Char) (s : Str) : Option ℕ := if c ∈ s then some (s.idxOf c) else none

/-- `l[i]` for an integer index, negative ones from the end (ipc356.py:297). -/
def pyIdxInt {α : Type} (l : List α) (i : ℤ) : PyR α :=
  if 0 ≤ i then pyIdx l i.toNat
  else if -(l.length : ℤ) ≤ i then pyIdx l (l.length + i).toNat
  else .error .indexError

/-! ## Records -/

/-- `IPC356_TestRecord` (ipc356.py:276-370). -/
structure TestRec where
  featureType : String
  netName : Str
  id : Str
  pin : Option Str
  location : String
  holeDiameter : Option ℚ := none
  plated : Option Bool := none
  access : Option String := none
  x : Option ℚ := none
  y : Option ℚ := none
  rectX : Option ℚ := none
  rectY : Option ℚ := none
  rotation : Option ℤ := none
  /-- the outer option: attribute present; the inner one: `None` for an unknown code -/
  soldermask : Option (Option String) := none
  optionalInfo : Option Str := none
  deriving DecidableEq, Repr

/-- Statements of a netlist (ipc356.py:241-474). -/
inductive Rec
  | comment (s : Str)
  | param (name value : Str)
  | eof
  | test (r : TestRec)
  | conductor (net : Str) (layer : ℤ) (aperture : Option ℚ × Option ℚ)
      (shapes : List (List (ℚ × ℚ)))
  | adjacency (net : Str) (adjacent : List Str)
  | outline (type : Str) (points : List (ℚ × ℚ))
  deriving DecidableEq, Repr

/-- `dia * 0.0001 if units == 'inch' else dia * 0.001` (ipc356.py:311). -/
def scaleOf (units : String) : ℚ := if units = "inch" then 1 / 10000 else 1 / 1000

/-- `feature_types[c]` (ipc356.py:283-285, 292). -/
def featureOf (c : Char) : PyR String :=
  if c = '1' then .ok "through-hole" else if c = '2' then .ok "smt"
  else if c = '3' then .ok "tooling-feature" else if c = '4' then .ok "tooling-hole"
  else if c = '6' then .ok "non-plated-tooling-hole" else .error .keyError

/-- `access` (ipc356.py:286-287). -/
def accessNames : List String :=
  ["both", "top", "layer2", "layer3", "layer4", "layer5", "layer6", "layer7", "bottom"]

/-- `_SM_FIELD.get(s)` (ipc356.py:30-34). -/
def smField (s : Str) : Option String :=
  if s = ['0'] then some "none" else if s = ['1'] then some "primary side"
  else if s = ['2'] then some "secondary side" else if s = ['3'] then some "both" else none

/-- A field `line[a+o:end]` with `end = len(line) - 1 if len(line) < b+1+o else b+o` (ipc356.py:294-303). -/
def field (line : Str) (o a b : ℕ) : Str :=
  slice (a + o) (if line.length < b + 1 + o then line.length - 1 else b + o) line

/-- An optional number field (ipc356.py:332-344): present only if the line is long enough and the
field is not blank. -/
def dimField (line : Str) (o a b : ℕ) (units : String) : PyR (Option ℚ) :=
  if a + 1 + o ≤ line.length then
    let dim := strip (field line o a b)
    if dim ≠ [] then do
      let n ← pyInt dim
      .ok (some (n * scaleOf units))
    else .ok none
  else .ok none

/-- `offset` (ipc356.py:297-299). -/
def recOffset (line : Str) : ℕ :=
  if 27 ≤ line.length ∧ line[26]? ≠ some '-' then (findChar '-' (line.drop 26)).getD 0 else 0

/-- `hole_diameter` (ipc356.py:308-312). -/
def holeField (line : Str) (o : ℕ) (units : String) : PyR (Option ℚ) := do
  let c ← pyIdx line (32 + o)
  if c = 'D' then do
    let n ← pyInt (strip (field line o 33 37))
    .ok (some (n * scaleOf units))
  else .ok none

/-- `access` (ipc356.py:316-318). -/
def accessField (line : Str) (o : ℕ) : PyR (Option String) :=
  if 40 + o ≤ line.length then do
    let n ← pyInt (field line o 39 41)
    let a ← pyIdxInt accessNames n
    .ok (some a)
  else .ok none

/-- `x_coord`, `y_coord` (ipc356.py:320-330). -/
def coordField (line : Str) (o a b : ℕ) (units : String) : PyR (Option ℚ) :=
  if a + 1 + o ≤ line.length then do
    let n ← pyInt (strip (field line o a b))
    .ok (some (n * scaleOf units))
  else .ok none

/-- `rect_rotation` (ipc356.py:346-351): `math.degrees` of a text raises `TypeError`. -/
def rotField (line : Str) (o : ℕ) (angle : String) : PyR (Option ℤ) :=
  if 69 + o ≤ line.length then
    let rot := strip (field line o 68 71)
    if rot ≠ [] then
      if angle = "degrees" then do
        let n ← pyInt rot
        .ok (some n)
      else .error .typeError
    else .ok none
  else .ok none

/-- `IPC356_TestRecord.from_line` (ipc356.py:279-362). -/
def TestRec.fromLine (line : Str) (units angle : String) : PyR TestRec := do
  let line := strip line
  let c0 ← pyIdx line 0
  if c0 ≠ '3' then .error .valueError else do
  let c1 ← pyIdx line 1
  let feature ← featureOf c1
  let net := strip (field line 0 3 17)
  let o := recOffset line
  let id := strip (slice 20 (if line.length < 27 + o then line.length - 1 else 26 + o) line)
  let pin := strip (field line o 27 31)
  let c31 ← pyIdx line (31 + o)
  let hole ← holeField line o units
  let access ← accessField line o
  let x ← coordField line o 42 49 units
  let y ← coordField line o 50 57 units
  let rx ← dimField line o 58 62 units
  let ry ← dimField line o 63 67 units
  let rot ← rotField line o angle
  .ok {
    featureType := feature
    netName := net
    id := id
    pin := if pin ≠ [] then some pin else none
    location := if c31 = 'M' then "middle" else "end"
    holeDiameter := hole
    plated := if 38 + o ≤ line.length then some (line[37 + o]? = some 'P') else none
    access := access
    x := x
    y := y
    rectX := rx
    rectY := ry
    rotation := rot
    soldermask := if 74 + o ≤ line.length then some (smField (strip (slice (73 + o) (74 + o) line)))
      else none
    optionalInfo := if 76 + o ≤ line.length then some (field line o 75 79) else none }

/-- `_COORD.match(s).groupdict()` for `X?(?P<x>[\d\s]*)?Y?(?P<y>[\d\s]*)?` (ipc356.py:28): both groups
always take part, possibly empty. -/
def coordGroups (s : Str) : Str × Str :=
  let s := match s with | 'X' :: r => r | _ => s
  let p := fun c => isDig c || isSpace c
  let r := s.dropWhile p
  let r := match r with | 'Y' :: t => t | _ => r
  (s.takeWhile p, r.takeWhile p)

/-- `int(g) if g is not '' else v` (ipc356.py:385-386). -/
def intOr (g : Str) (v : ℤ) : PyR ℤ := if g ≠ [] then pyInt g else .ok v

/-- The loop over coordinates (ipc356.py:380-387, 425-433). -/
def coordPath (scale : ℚ) : ℤ → ℤ → List Str → PyR (List (ℚ × ℚ))
  | _, _, [] => .ok []
  | x, y, c :: cs => do
    let g := coordGroups c
    let x ← intOr g.1 x
    let y ← intOr g.2 y
    let r ← coordPath scale x y cs
    .ok ((x * scale, y * scale) :: r)

/-- `IPC356_Outline.from_line` (ipc356.py:376-388). -/
def outlineFromLine (line : Str) (units : String) : PyR Rec := do
  let pts ← coordPath (scaleOf units) 0 0 ((words (strip line)).drop 1)
  .ok (.outline (strip (slice 3 17 line)) pts)

/-- `int(g) * scale if g is not '' else None` (ipc356.py:414-417). -/
def dimOr (g : Str) (scale : ℚ) : PyR (Option ℚ) :=
  if g ≠ [] then do
    let n ← pyInt g
    .ok (some (n * scale))
  else .ok none

/-- `IPC356_Conductor.from_line` (ipc356.py:401-435). -/
def conductorFromLine (line : Str) (units : String) : PyR Rec := do
  if slice 0 3 line ≠ ['3', '7', '8'] then .error .valueError else do
  let scale := scaleOf units
  let layer ← pyInt (slice 19 21 line)
  let ws := words (line.drop 22)
  let raw ← pyIdx ws 0
  let g := coordGroups raw
  let ax ← dimOr g.1 scale
  let ay ← dimOr g.2 scale
  let shapes ← (splitOn '*' (unwords (ws.drop 1))).mapM fun r => coordPath scale 0 0 (words r)
  .ok (.conductor (strip (slice 3 17 line)) layer (ax, ay) shapes)

/-- `IPC356_Adjacency.from_line` (ipc356.py:450-455). -/
def adjacencyFromLine (line : Str) : PyR Rec := do
  if slice 0 3 line ≠ ['3', '7', '9'] then .error .valueError else do
  let nets := words (strip (line.drop 3))
  let net ← pyIdx nets 0
  .ok (.adjacency net (nets.drop 1))

/-- `IPC356_Parameter.from_line` (ipc356.py:260-266): name and value. -/
def paramFromLine (line : Str) : PyR (Str × Str) := do
  let c ← pyIdx line 0
  if c ≠ 'P' then .error .valueError else do
  let ws := words (line.drop 2)
  let name ← pyIdx ws 0
  .ok (strip name, strip (unwords (ws.drop 1)))

/-- `_NNAME.match(s)`: `^NNAME\d+$` (ipc356.py:25); `$` also matches before a final newline. -/
def isNName (s : Str) : Bool :=
  let d := s.drop 5
  let d' := if d.getLast? = some '\n' then d.dropLast else d
  (s.take 5 == "NNAME".toList) && d' != [] && d'.all isDig

/-! ## The parser -/

/-- `IPCNetlistParser` (ipc356.py:152-159). -/
structure Parser where
  units : String := "inch"
  angle : String := "degrees"
  statements : List Rec := []
  nnames : List (Str × Str) := []
  deriving DecidableEq, Repr

/-- Units chosen by a parameter (ipc356.py:196-205). -/
def Parser.setUnits (p : Parser) (name value : Str) : Parser :=
  if name = "UNITS".toList then
    if value = "CUST".toList ∨ value = "CUST 0".toList then
      { p with units := "inch", angle := "degrees" }
    else if value = "CUST 1".toList then { p with units := "metric", angle := "degrees" }
    else if value = "CUST 2".toList then { p with units := "inch", angle := "radians" }
    else p
  else p

/-- `self.statements.append(r)` (ipc356.py:191). -/
def Parser.add (p : Parser) (r : Rec) : Parser := { p with statements := p.statements ++ [r] }

/-- The parameter branch (ipc356.py:193-209). -/
def Parser.param (p : Parser) (name value : Str) : Parser :=
  let p := (p.setUnits name value).add (.param name value)
  if isNName name then { p with nnames := dictSet p.nnames name value } else p

/-- Substitution of net name variables (ipc356.py:218-221). -/
def Parser.substNet (p : Parser) (r : TestRec) : TestRec :=
  if isNName r.netName then
    match dictGet p.nnames r.netName with
    | some v => { r with netName := v }
    | none => r
  else r

/-- `_parse_line` (ipc356.py:186-238). -/
def Parser.parseLine (p : Parser) (line : Str) : PyR Parser :=
  match line with
  | [] => .ok p
  | c :: _ =>
    if c = 'C' then .ok (p.add (.comment (strip (line.drop 2))))
    else if c = 'P' then do
      let nv ← paramFromLine line
      .ok (p.param nv.1 nv.2)
    else if c = '9' then .ok (p.add .eof)
    else if slice 0 3 line ∈ [['3', '1', '7'], ['3', '2', '7'], ['3', '6', '7']] then do
      let r ← TestRec.fromLine line p.units p.angle
      .ok (p.add (.test (p.substNet r)))
    else if slice 0 3 line = ['3', '7', '8'] then do
      let r ← conductorFromLine line p.units
      .ok (p.add r)
    else if slice 0 3 line = ['3', '7', '9'] then do
      let r ← adjacencyFromLine line
      .ok (p.add r)
    else if slice 0 3 line = ['3', '8', '9'] then do
      let r ← outlineFromLine line p.units
      .ok (p.add r)
    else .ok p

/-- `IPCNetlist` (ipc356.py:73-86).  The test records of `primitives` are positions, net names and
layers. -/
structure Netlist where
  statements : List Rec
  units : String
  angle : String
  primitives : List ((ℚ × ℚ) × Str × String)
  deriving DecidableEq, Repr

/-- `TestRecord((rec.x_coord, rec.y_coord), rec.net_name, rec.access)` (ipc356.py:84-85): a record
that lacks one of the attributes raises `AttributeError`. -/
def testPrimitive (r : TestRec) : PyR ((ℚ × ℚ) × Str × String) :=
  match r.x, r.y, r.access with
  | some x, some y, some a => .ok ((x, y), r.netName, a)
  | _, _, _ => .error .attributeError

/-- `test_records` (ipc356.py:102-105). -/
def testRecords (ss : List Rec) : List TestRec :=
  ss.filterMap fun | .test r => some r | _ => none

/-- `IPCNetlist.__init__` (ipc356.py:80-86). -/
def Parser.finish (p : Parser) : PyR Netlist := do
  let prims ← (testRecords p.statements).mapM testPrimitive
  .ok { statements := p.statements, units := p.units, angle := p.angle, primitives := prims }

/-- One turn of the loop of `parse_raw` (ipc356.py:172-181): parser and `oldline`. -/
def step (st : Parser × Str) (line : Str) : PyR (Parser × Str) :=
  if st.2 ≠ [] then
    match line with
    | '0' :: _ =>
      .ok (st.1, rstripBy (fun c => c == '\r' || c == '\n') st.2 ++ rstripBy isSpace (line.drop 3))
    | _ => do
      let p ← st.1.parseLine st.2
      .ok (p, line)
  else .ok (st.1, line)

/-- `IPCNetlistParser().parse_raw(data)` (ipc356.py:170-184). -/
def parseRaw (data : Str) : PyR Netlist := do
  let st ← (splitLines data).foldlM step ({}, [])
  let p ← st.1.parseLine st.2
  p.finish

/-! ## Nets -/

/-- `adjacency_records` (ipc356.py:135-138). -/
def adjacencyRecords (ss : List Rec) : List (Str × List Str) :=
  ss.filterMap fun | .adjacency n l => some (n, l) | _ => none

/-- One turn of the inner loop (ipc356.py:113-117): `adjacent_nets` is a set or `None`; a set is a
list without order and multiplicity.  `adjacent_nets.update(…)` returns `None`. -/
def adjStep (net : Str) (adj : Option (List Str)) (r : Str × List Str) :
    PyR (Option (List Str)) :=
  if r.1 = net then
    match adj with
    | some _ => .ok none
    | none => .error .attributeError
  else if net ∈ r.2 then
    match adj with
    | some l => .ok (some (r.1 :: l))
    | none => .error .attributeError
  else .ok adj

/-- The adjacent nets of one net (ipc356.py:112-118, 479-482). -/
def adjacentNets (ss : List Rec) (net : Str) : PyR (List Str) := do
  let adj ← (adjacencyRecords ss).foldlM (adjStep net) (some [])
  .ok (adj.getD [])

/-- `nets` (ipc356.py:107-119): names with adjacent nets, in an unspecified order (`list(set(…))`; here
that of the last occurrences). -/
def nets (ss : List Rec) : PyR (List (Str × List Str)) :=
  ((testRecords ss).map (·.netName)).dedup.mapM fun n => do
    let a ← adjacentNets ss n
    .ok (n, a)

/-- `components` (ipc356.py:121-124): `list(set(…))`, in an unspecified order.  `rec.id` is never `None`. -/
def components (ss : List Rec) : List Str :=
  (((testRecords ss).map (·.id)).filter (· ≠ "VIA".toList)).dedup

/-- `vias` (ipc356.py:126-128). -/
def vias (ss : List Rec) : List Str := ((testRecords ss).map (·.id)).filter (· = "VIA".toList)

/-- `render` (ipc356.py:140-148): the primitives that are drawn, in order.  `layer` is the third component. -/
def drawn (layer : String) (prims : List ((ℚ × ℚ) × Str × String)) : List ((ℚ × ℚ) × Str × String) :=
  prims.filter fun p =>
    if layer = "both" ∧ p.2.2 ∈ ["top", "bottom", "both"] then true
    else if layer = "top" ∧ p.2.2 ∈ ["top", "both"] then true
    else if layer = "bottom" ∧ p.2.2 ∈ ["bottom", "both"] then true
    else false

/-- `to_inch` and `to_metric` of a netlist: inherited from `CamFile` (cam.py:257-261), both are `pass`. -/
def Netlist.toInch (n : Netlist) : Netlist := n
/-- (cam.py:260-261) -/
def Netlist.toMetric (n : Netlist) : Netlist := n

end Verif.Ipc
