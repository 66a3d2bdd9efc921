import Verif.Model.GerberSplit
import Verif.Model.GerberStmt
import Verif.Model.Macro

/-! # Model of `GerberParser._parse` (gerber/rs274x.py:183-480) -/

namespace Verif.Gerber
open Verif.Py Verif.Cam Verif.Utils
open Verif.Py.Re

/-! ## The regular expressions (rs274x.py:183-236)

`\d` is `[0-9]`; `.` is any character except line feed. -/

/-- Character class of the characters of a text (rs274x.py:183-186). -/
def oneOf (cs : Str) (c : Char) : Bool := cs.contains c

/-- ASCII letter (rs274x.py:186). -/
def isAlpha (c : Char) : Bool := ('a' ≤ c && c ≤ 'z') || ('A' ≤ c && c ≤ 'Z')

/-- First character of `NAME` (rs274x.py:186). -/
def isName1 (c : Char) : Bool := isAlpha c || oneOf ['_', '$', '.'] c

/-- Further characters of `NAME` (rs274x.py:186). -/
def isNameCh (c : Char) : Bool := isName1 c || isDig c || oneOf ['+', '-'] c

/-- `[^,%]` (rs274x.py:191) -/
def isMod (c : Char) : Bool := c != ',' && c != '%'

/-- `.` (rs274x.py:198) -/
def isDot (c : Char) : Bool := c != '\n'

/-- `NUMBER` (rs274x.py:183). -/
def reNumber : List Re := [opt (.chr (oneOf ['+', '-'])), plus isDig]

/-- `DECIMAL` (rs274x.py:184), `[\+-]?\d+([.]?\d+)?`. -/
def reDecimal : Re := cat [opt (.chr (oneOf ['+', '-'])), plus isDig, opt (.seq (opt (lit '.')) (plus isDig))]

/-- `PARAM_STMT`: each parameter expression wrapped in `%?` and `\*%?` (rs274x.py:218). -/
def wrap (l : List Re) : Re := cat (opt (lit '%') :: l ++ [lit '*', opt (lit '%')])

/-- The two parameter letters as group `param` (rs274x.py:188-209). -/
def pcode (s : Str) : Re := .grp "param" (Re.str s)

/-- `FS` (rs274x.py:188). -/
def reFS : Re := wrap [pcode ['F', 'S'], opt (.grp "zero" (.chr (oneOf ['L', 'T', 'D']))),
  .grp "notation" (.chr (oneOf ['A', 'I'])), .star (fun c => oneOf ['N', 'G'] c || isDig c),
  lit 'X', .grp "x" (.seq (.chr (oneOf ['0', '1', '2', '3', '4', '5', '6', '7'])) (.chr (oneOf ['0', '1', '2', '3', '4', '5', '6', '7']))),
  lit 'Y', .grp "y" (.seq (.chr (oneOf ['0', '1', '2', '3', '4', '5', '6', '7'])) (.chr (oneOf ['0', '1', '2', '3', '4', '5', '6', '7']))),
  .star (fun c => oneOf ['D', 'M'] c || isDig c)]

/-- `MO` (rs274x.py:189). -/
def reMO : Re := wrap [pcode ['M', 'O'], .grp "mo" (.alt (Re.str ['M', 'M']) (Re.str ['I', 'N']))]

/-- `LP` (rs274x.py:190). -/
def reLP : Re := wrap [pcode ['L', 'P'], .grp "lp" (.chr (oneOf ['D', 'C']))]

/-- `AD_CIRCLE` (rs274x.py:191). -/
def reADC : Re := wrap [pcode ['A', 'D'], lit 'D', .grp "d" (plus isDig), .grp "shape" (lit 'C'),
  opt (lit ','), .grp "modifiers" (.star isMod)]

/-- `AD_RECT`, `AD_OBROUND`, `AD_POLY` (rs274x.py:192-194). -/
def reADShape (shape : Char) : Re := wrap [pcode ['A', 'D'], lit 'D', .grp "d" (plus isDig),
  .grp "shape" (lit shape), lit ',', .grp "modifiers" (.star isMod)]

/-- `AD_MACRO` (rs274x.py:195). -/
def reADM : Re := wrap [pcode ['A', 'D'], lit 'D', .grp "d" (plus isDig),
  .grp "shape" (.seq (.chr isName1) (plus isNameCh)), opt (lit ','),
  .grp "modifiers" (.star isMod)]

/-- `AM` (rs274x.py:196). -/
def reAM : Re := wrap [pcode ['A', 'M'], .grp "name" (.seq (.chr isName1) (plus isNameCh)), lit '*',
  .grp "macro" (.star (· != '%'))]

/-- `AS` (rs274x.py:202). -/
def reAS : Re := wrap [pcode ['A', 'S'], .grp "mode" (.alt (Re.str ['A', 'X', 'B', 'Y']) (Re.str ['A', 'Y', 'B', 'X']))]

/-- `IF` (rs274x.py:198). -/
def reIF : Re := wrap [pcode ['I', 'F'], .grp "filename" (.star isDot)]

/-- `IN` (rs274x.py:203). -/
def reIN : Re := wrap [pcode ['I', 'N'], .grp "name" (.star isDot)]

/-- `IP` (rs274x.py:204). -/
def reIP : Re := wrap [pcode ['I', 'P'], .grp "ip" (.alt (Re.str ['P', 'O', 'S']) (Re.str ['N', 'E', 'G']))]

/-- `IR` (rs274x.py:205). -/
def reIR : Re := wrap [pcode ['I', 'R'], .grp "angle" (cat reNumber)]

/-- `MI` (rs274x.py:206). -/
def reMI : Re := wrap [pcode ['M', 'I'], opt (.seq (lit 'A') (.grp "a" (.chr (oneOf ['0', '1'])))),
  opt (.seq (lit 'B') (.grp "b" (.chr (oneOf ['0', '1']))))]

/-- `OF` (rs274x.py:207). -/
def reOF : Re := wrap [pcode ['O', 'F'], opt (.seq (lit 'A') (.grp "a" reDecimal)),
  opt (.seq (lit 'B') (.grp "b" reDecimal))]

/-- `SF` (rs274x.py:208). -/
def reSF : Re := wrap [pcode ['S', 'F'], .grp "discarded" (.star isDot)]

/-- `LN` (rs274x.py:209). -/
def reLN : Re := wrap [pcode ['L', 'N'], .grp "name" (.star isDot)]

/-- `PARAM_STMT` in order (rs274x.py:214-218). -/
def paramStmts : List Re := [reFS, reMO, reLP, reADC, reADShape 'R', reADShape 'O', reADShape 'P',
  reADM, reAM, reAS, reIF, reIN, reIP, reIR, reMI, reOF, reSF, reLN]

/-- An optional coordinate word of `COORD_STMT` (rs274x.py:224-225). -/
def reWord (c : Char) (name : String) : Re := opt (.seq (lit c) (.grp name (cat reNumber)))

/-- `COORD_STMT` (rs274x.py:220-227). -/
def reCoord : Re := cat [
  opt (.grp "function" (cat [lit 'G', opt (lit '0'), .chr (oneOf ['1', '2', '3'])])),
  reWord 'X' "x", reWord 'Y' "y", reWord 'I' "i", reWord 'J' "j",
  opt (.grp "op" (cat [lit 'D', opt (lit '0'), .chr (oneOf ['1', '2', '3'])])), lit '*']

/-- `APERTURE_STMT` (rs274x.py:229). -/
def reAperture : Re := cat [
  opt (.grp "deprecated" (.alt (Re.str ['G', '5', '4']) (Re.str ['G', '5', '5']))),
  lit 'D', .grp "d" (plus isDig), lit '*']

/-- `COMMENT_STMT` (rs274x.py:231). -/
def reComment : Re := cat [lit 'G', opt (lit '0'), lit '4', .grp "comment" (.star (· != '*')),
  opt (lit '*')]

/-- `EOF_STMT` (rs274x.py:233). -/
def reEof : Re := cat [.grp "eof" (cat [lit 'M', opt (lit '0'), .chr (oneOf ['0', '1', '2'])]), lit '*']

/-- `REGION_MODE_STMT` (rs274x.py:235). -/
def reRegion : Re := cat [.grp "mode" (cat [lit 'G', lit '3', .chr (oneOf ['6', '7'])]), lit '*']

/-- `QUAD_MODE_STMT` (rs274x.py:236). -/
def reQuad : Re := cat [.grp "mode" (cat [lit 'G', lit '7', .chr (oneOf ['4', '5'])]), lit '*']

/-- `DEPRECATED_UNIT` (rs274x.py:210). -/
def reDepUnit : Re := cat [.grp "mode" (cat [lit 'G', lit '7', .chr (oneOf ['0', '1'])]), lit '*']

/-- `DEPRECATED_FORMAT` (rs274x.py:211). -/
def reDepFormat : Re := cat [.grp "format" (cat [lit 'G', lit '9', .chr (oneOf ['0', '1'])]), lit '*']

/-- `_match_one_from_many` (rs274x.py:791-800). -/
def matchMany (l : List Re) (line : Str) : Option (Caps × Str) := l.findSome? (·.pyMatch line)

/-! ## Building statements from groups -/

/-- `parse_gerber_value` of an optional group (gerber_statements.py:897-909). -/
def optValue (st : FileSettings) : Option Str → PyR (Option ℚ)
  | none => .ok none
  | some s => match parseGerberValue s st.format st.zeroSuppression with
    | .ok v => .ok (some v)
    | .error e => .error e

/-- `CoordStmt.from_dict` (gerber_statements.py:889-911). -/
def coordFromDict (st : FileSettings) (m : Caps) : PyR Coord := do
  let x ← optValue st (m.get "x")
  let y ← optValue st (m.get "y")
  let i ← optValue st (m.get "i")
  let j ← optValue st (m.get "j")
  .ok { function := m.get "function", x := x, y := y, i := i, j := j, op := m.get "op" }

/-- `int(...)` of a digit group as a natural number (gerber_statements.py:319, 1078). -/
def natGroup (s : Option Str) : PyR ℕ :=
  match s with
  | none => .error .typeError
  | some s => match pyInt s with
    | .ok z => .ok z.toNat
    | .error e => .error e

/-- `FSParamStmt.from_dict` (gerber_statements.py:104-121): zero suppression, notation, format. -/
def fsFromDict (m : Caps) : PyR (String × String × (ℕ × ℕ)) :=
  let zeros := if m.get "zero" = some ['L'] then "leading"
    else if m.get "zero" = some ['T'] then "trailing" else "none"
  let notation_ := if m.get "notation" = some ['A'] then "absolute" else "incremental"
  match m.get "x" with
  | some [a, b] => .ok (zeros, notation_, (digVal a, digVal b))
  | _ => .error .valueError

/-- `ADParamStmt.__init__` on the modifier text (gerber_statements.py:350-356). -/
def adMods (modifiers : Str) : PyR (List (List ℚ)) :=
  if modifiers ≠ [] then
    ((splitOn ',' modifiers).filter (· ≠ [])).mapM fun m =>
      ((splitOn 'X' m).filter (· ≠ [])).mapM pyFloat
  else .ok [[]]

/-- The required group of a matched expression (always present) (rs274x.py:786-792). -/
def reqGroup (m : Caps) (n : String) : Str := (m.get n).getD []

/-- What one parameter match does: a statement with new settings, or an include (rs274x.py:365-418). -/
inductive ParamAct
  | stmt (s : Stmt) (st : FileSettings)
  | incl (filename : Str)

/-- `int(stmt_dict.get('a', 0))` of `MIParamStmt.from_dict` (gerber_statements.py:620-624): an
absent group is `None`, so `int(None)` raises. -/
def miField (s : Option Str) : PyR ℤ := match s with
  | none => .error .typeError
  | some s => pyInt s

/-- `float(stmt_dict.get('a', 0))` of `OFParamStmt.from_dict` (gerber_statements.py:669-673): an
absent group is `None`, so `float(None)` raises. -/
def ofField (s : Option Str) : PyR ℚ := match s with
  | none => .error .typeError
  | some s => pyFloat s

/-- Dispatch on the matched parameter (rs274x.py:360-417). -/
def paramStmt (st : FileSettings) (line : Str) (m : Caps) : PyR ParamAct :=
  let p := reqGroup m "param"
  if p = ['F', 'S'] then do
    let (z, n, f) ← fsFromDict m
    .ok (.stmt (.fs z n f) { (st.setZeroSuppression z) with format := f, notation_ := n })
  else if p = ['M', 'O'] then
    let mode := if m.get "mo" = some ['I', 'N'] then "inch" else "metric"
    .ok (.stmt (.mo mode) { st with units := mode })
  else if p = ['L', 'P'] then
    .ok (.stmt (.lp (if m.get "lp" = some ['C'] then "clear" else "dark")) st)
  else if p = ['A', 'D'] then do
    let d ← natGroup (m.get "d")
    let mods ← adMods (reqGroup m "modifiers")
    .ok (.stmt (.ad d (reqGroup m "shape") mods) st)
  else if p = ['A', 'M'] then do
    -- the macro is compiled at once (gerber_statements.py:421), which can fail
    let _ ← Macro.readMacro (reqGroup m "macro")
    .ok (.stmt (.am (reqGroup m "name") (reqGroup m "macro") []) st)
  else if p = ['O', 'F'] then do
    let a ← ofField (m.get "a")
    let b ← ofField (m.get "b")
    .ok (.stmt (.of_ a b) st)
  else if p = ['I', 'F'] then .ok (.incl (reqGroup m "filename"))
  else if p = ['I', 'N'] then .ok (.stmt (.in_ (reqGroup m "name")) st)
  else if p = ['L', 'N'] then .ok (.stmt (.ln (reqGroup m "name")) st)
  else if p = ['A', 'S'] then .ok (.stmt (.as_ (reqGroup m "mode")) st)
  else if p = ['I', 'P'] then
    .ok (.stmt (.ip (if m.get "ip" = some ['P', 'O', 'S'] then "positive" else "negative")) st)
  else if p = ['I', 'R'] then do
    let a ← pyInt (reqGroup m "angle")
    .ok (.stmt (.ir a) st)
  else if p = ['M', 'I'] then do
    let a ← miField (m.get "a")
    let b ← miField (m.get "b")
    .ok (.stmt (.mi a b) st)
  -- the SF expression captures no `a`/`b`, so `SFParamStmt.from_dict` always uses the default 1
  else if p = ['S', 'F'] then .ok (.stmt (.sf 1 1) st)
  else .ok (.stmt (.unknown line) st)

/-- Outcome of one round of the inner loop (rs274x.py:336-480). -/
inductive StepRes
  /-- nothing recognised: the loop ends with the line as it is -/
  | stop
  /-- a `*` is skipped -/
  | eat (rest : Str)
  /-- a statement is yielded -/
  | yield (s : Stmt) (st : FileSettings) (rest : Str)
  /-- an include -/
  | incl (filename rest : Str)

/-- One round of the inner loop of `_parse` (rs274x.py:336-478) on a non-empty line. -/
def step (st : FileSettings) (line : Str) : PyR StepRes :=
  if line.head? = some '*' then .ok (.eat line.tail)
  else match reCoord.pyMatch line with
  | some (m, r) => do
    let c ← coordFromDict st m
    .ok (.yield (.coord c) st r)
  | none => match reAperture.pyMatch line with
  | some (m, r) => do
    let d ← natGroup (m.get "d")
    .ok (.yield (.aperture d (m.get "deprecated").isSome) st r)
  | none => match matchMany paramStmts line with
  | some (m, r) => do
    match ← paramStmt st line m with
    | .stmt s st' => .ok (.yield s st' r)
    | .incl f => .ok (.incl f r)
  | none => match reRegion.pyMatch line with
  | some (_, r) =>
    .ok (.yield (.region (if line.take 3 = ['G', '3', '6'] then "on" else "off")) st r)
  | none => match reQuad.pyMatch line with
  | some (_, r) =>
    .ok (.yield (.quad (if line.take 3 = ['G', '7', '4'] then "single-quadrant"
      else "multi-quadrant")) st r)
  | none => match reComment.pyMatch line with
  | some (m, r) => .ok (.yield (.comment (reqGroup m "comment")) st r)
  | none => match reDepUnit.pyMatch line with
  | some (m, r) =>
    let mode := if reqGroup m "mode" = ['G', '7', '0'] then "inch" else "metric"
    .ok (.yield (.mo mode) { st with units := mode } r)
  | none => match reDepFormat.pyMatch line with
  | some (_, r) => .ok (.yield (.deprecated line) st r)
  | none => match reEof.pyMatch line with
  | some (_, r) => .ok (.yield .eof st r)
  | none => if '*' ∈ line then .ok (.yield (.unknown line) st []) else .ok .stop

/-! ## Lines, blocks, files -/

/-- Reads an included file with given settings (rs274x.py:385-395). -/
abbrev Includer := Str → FileSettings → PyR (List Stmt × FileSettings)

/-- The inner `while` loop (rs274x.py:333-478): statements, settings, rest of the line.  Every
round removes at least one character (`step_shorter`), so the length of the line bounds the number
of rounds. -/
def parseLine (inc : Includer) : ℕ → FileSettings → Str → PyR (List Stmt × FileSettings × Str)
  | 0, st, line => .ok ([], st, line)
  | n + 1, st, line =>
    if line = [] then .ok ([], st, [])
    else match step st line with
      | .error e => .error e
      | .ok .stop => .ok ([], st, line)
      | .ok (.eat r) => parseLine inc n st r
      | .ok (.yield s st' r) => do
        let (l, st'', rest) ← parseLine inc n st' r
        .ok (s :: l, st'', rest)
      | .ok (.incl f r) => do
        let (l1, st1) ← inc f st
        let (l2, st2, rest) ← parseLine inc n st1 r
        .ok (l1 ++ l2, st2, rest)

/-- `line.startswith("%") and not line.endswith("%") and not "%" in line[1:]` (rs274x.py:329). -/
def isOpenParam (line : Str) : Bool :=
  line.head? == some '%' && !(line.getLast? == some '%') && !(line.tail.contains '%')

/-- The outer loop of `_parse` (rs274x.py:320-480); `old` is `oldline`. -/
def parseBlocks (inc : Includer) (st : FileSettings) (old : Str) :
    List Str → PyR (List Stmt × FileSettings)
  | [] => .ok ([], st)
  | b :: bs =>
    let line := old ++ strip b
    if line = [] then parseBlocks inc st old bs
    else if isOpenParam line then parseBlocks inc st line bs
    else do
      let (l, st', rest) ← parseLine inc line.length st line
      let (l', st'') ← parseBlocks inc st' rest bs
      .ok (l ++ l', st'')

/-- `_parse(_split_commands(data))` at include level `depth`, i.e. `_recursion_depth == depth`
(rs274x.py:378-388; `INCLUDE_FILE_RECURSION_LIMIT` is 10, rs274x.py:238).  `fs` maps the name in an
`IF` statement to the content of the included file (`none`: cannot be opened).  `stack` is the number
of nested generators the Python interpreter can hold; `C17` shows that eleven are enough. -/
def parseData (fs : Str → Option Str) : ℕ → ℕ → FileSettings → Str →
    PyR (List Stmt × FileSettings)
  | 0, _, _, _ => .error .recursionError
  | stack + 1, depth, st, data =>
    parseBlocks (fun f st' =>
      if depth < 10 then match fs f with
        | none => .error .ioError
        | some text => parseData fs stack (depth + 1) st' text
      else .error .ioError) st [] (splitCommands data)

/-- `FileSettings()` (cam.py:57-60), the initial settings of a parser. -/
def defaultSettings : FileSettings :=
  { notation_ := "absolute", units := "inch", zeroSuppression := "trailing", zeros := "leading",
    format := (2, 5), angleUnits := "degrees" }

/-- The statements read from a text by a fresh parser (rs274x.py:267-271). -/
def parseText (fs : Str → Option Str) (data : Str) : PyR (List Stmt × FileSettings) :=
  parseData fs 11 0 defaultSettings data

end Verif.Gerber
