import Verif.Py.Regex
import Verif.Py.Format
import Verif.Model.Utils
import Verif.Model.Cam

/-! # Gerber statements (gerber/gerber_statements.py): fields, printing -/

namespace Verif.Gerber
open Verif.Py Verif.Cam Verif.Utils

/-- Fields of `CoordStmt` (gerber_statements.py:938-976). -/
structure Coord where
  function : Option Str := none
  x : Option ℚ := none
  y : Option ℚ := none
  i : Option ℚ := none
  j : Option ℚ := none
  op : Option Str := none
  deriving DecidableEq

/-- The statement classes of gerber_statements.py.  The `units` and `param` attributes are not
included here.  `am` carries, besides name and macro text, the texts that `to_gerber` of the
primitives of the last `build` gives (empty if never built; the instructions are a function of the
macro text) (gerber_statements.py:95-1193). -/
inductive Stmt
  /-- `FSParamStmt` (95-170) -/
  | fs (zero notation_ : String) (format : ℕ × ℕ)
  /-- `MOParamStmt` (173-226) -/
  | mo (mode : String)
  /-- `LPParamStmt` (229-264) -/
  | lp (pol : String)
  /-- `ADParamStmt` (267-386): aperture number, shape name, list of modifier tuples -/
  | ad (d : ℕ) (shape : Str) (mods : List (List ℚ))
  /-- `AMParamStmt` (389-472) -/
  | am (name body : Str) (built : List Str)
  /-- `ASParamStmt` (475-508) -/
  | as_ (mode : Str)
  /-- `INParamStmt` (511-542) -/
  | in_ (name : Str)
  /-- `IPParamStmt` (545-579) -/
  | ip (pol : String)
  /-- `IRParamStmt` (582-614) -/
  | ir (angle : ℤ)
  /-- `MIParamStmt` (617-661) -/
  | mi (a b : ℤ)
  /-- `OFParamStmt` (664-735) -/
  | of_ (a b : ℚ)
  /-- `SFParamStmt` (738-809) -/
  | sf (a b : ℚ)
  /-- `LNParamStmt` (812-843) -/
  | ln (name : Str)
  /-- `DeprecatedStmt` (846-874) -/
  | deprecated (line : Str)
  /-- `CoordStmt` (877-1069) -/
  | coord (c : Coord)
  /-- `ApertureStmt` (1072-1088) -/
  | aperture (d : ℕ) (dep : Bool)
  /-- `CommentStmt` (1091-1103) -/
  | comment (text : Str)
  /-- `EofStmt` (1106-1117) -/
  | eof
  /-- `QuadrantModeStmt` (1120-1147) -/
  | quad (mode : String)
  /-- `RegionModeStmt` (1150-1174) -/
  | region (mode : String)
  /-- `UnknownStmt` (1177-1189) -/
  | unknown (line : Str)
  deriving DecidableEq

/-- `c.join(strs)` for a one character separator (gerber_statements.py:372). -/
def joinWith (c : Char) : List Str → Str
  | [] => []
  | [s] => s
  | s :: l => s ++ c :: joinWith c l

/-- Truncate/pad the decimals: `decimal_string` (utils.py:170-206) after `'%0.10g' % value`. -/
def decimalStringOf (floatstr : Str) (precision : ℕ) (padding : Bool) : Str :=
  let (integer, decimal) :=
    if '.' ∈ floatstr then (floatstr.takeWhile (· ≠ '.'), (floatstr.dropWhile (· ≠ '.')).drop 1)
    else (floatstr, ['0'])
  let decimal :=
    if decimal.length > precision then decimal.take precision
    else if padding then decimal ++ List.replicate (precision - decimal.length) '0'
    else decimal
  integer ++ '.' :: decimal

/-- `decimal_string` (utils.py:170-206).  `floatstr` never contains `,` and has at most one `.`. -/
def decimalString (value : ℚ) (precision : ℕ) (padding : Bool) : Str :=
  decimalStringOf (fmtG 10 value) precision padding

/-- An optional coordinate field of `CoordStmt.to_gerber` (gerber_statements.py:982-993). -/
def coordField (c : Char) (st : FileSettings) : Option ℚ → PyR Str
  | none => .ok []
  | some v => match writeGerberValue v st.format st.zeroSuppression with
    | .ok s => .ok (c :: s)
    | .error e => .error e

/-- `CoordStmt.to_gerber` (gerber_statements.py:978-996). -/
def Coord.toGerber (st : FileSettings) (c : Coord) : PyR Str := do
  let x ← coordField 'X' st c.x
  let y ← coordField 'Y' st c.y
  let i ← coordField 'I' st c.i
  let j ← coordField 'J' st c.j
  .ok (c.function.getD [] ++ x ++ y ++ i ++ j ++ c.op.getD [] ++ ['*'])

/-- `to_gerber(settings)` of every statement class.  The `settings` argument is always given, as
`GerberFile.write` does (rs274x.py:149-155). -/
def Stmt.toGerber (st : FileSettings) : Stmt → PyR Str
  -- 156-166
  | .fs _ _ _ => .ok (['%', 'F', 'S'] ++ (if st.zeroSuppression = "leading" then ['L'] else ['T']) ++
      (if st.notation_ = "absolute" then ['A'] else ['I']) ++
      'X' :: (natStr st.format.1 ++ natStr st.format.2) ++
      'Y' :: (natStr st.format.1 ++ natStr st.format.2) ++ ['*', '%'])
  -- 214-216
  | .mo mode => .ok (['%', 'M', 'O'] ++ (if mode = "metric" then ['M', 'M'] else ['I', 'N']) ++
      ['*', '%'])
  -- 259-261
  | .lp pol => .ok (['%', 'L', 'P'] ++ (if pol = "clear" then ['C'] else ['D']) ++ ['*', '%'])
  -- 370-374
  | .ad d shape mods => .ok (['%', 'A', 'D', 'D'] ++ natStr d ++ shape ++
      (if mods.any (· ≠ []) then
        ',' :: joinWith ',' (mods.map fun m => joinWith 'X' (m.map (fmtG 4))) else []) ++
      ['*', '%'])
  -- 468-469
  | .am name _ built => .ok (['%', 'A', 'M'] ++ name ++ '*' :: built.flatten ++ ['%'])
  -- 504-505
  | .as_ mode => .ok (['%', 'A', 'S'] ++ mode ++ ['*', '%'])
  -- 538-539
  | .in_ name => .ok (['%', 'I', 'N'] ++ name ++ ['*', '%'])
  -- 574-576
  | .ip pol => .ok (['%', 'I', 'P'] ++ (if pol = "positive" then ['P', 'O', 'S'] else ['N', 'E', 'G']) ++
      ['*', '%'])
  -- 610-611
  | .ir angle => .ok (['%', 'I', 'R'] ++ intStr angle ++ ['*', '%'])
  -- 651-658
  | .mi a b => .ok (['%', 'M', 'I', 'A'] ++ intStr a ++ 'B' :: intStr b ++ ['*', '%'])
  -- 699-705
  | .of_ a b => .ok (['%', 'O', 'F', 'A'] ++ decimalString a 5 false ++ 'B' :: decimalString b 5 false ++
      ['*', '%'])
  -- 773-779
  | .sf a b => .ok (['%', 'S', 'F', 'A'] ++ decimalString a 5 false ++ 'B' :: decimalString b 5 false ++
      ['*', '%'])
  -- 839-840
  | .ln name => .ok (['%', 'L', 'N'] ++ name ++ ['*', '%'])
  -- 870-871
  | .deprecated line => .ok line
  | .coord c => c.toGerber st
  -- 1081-1085
  | .aperture d dep => .ok ((if dep then ['G', '5', '4', 'D'] else ['D']) ++ natStr d ++ ['*'])
  -- 1099-1100
  | .comment text => .ok (['G', '0', '4'] ++ text ++ ['*'])
  -- 1113-1114
  | .eof => .ok ['M', '0', '2', '*']
  -- 1146-1147
  | .quad mode => .ok (if mode = "single-quadrant" then ['G', '7', '4', '*'] else ['G', '7', '5', '*'])
  -- 1173-1174
  | .region mode => .ok (if mode = "on" then ['G', '3', '6', '*'] else ['G', '3', '7', '*'])
  -- 1185-1186
  | .unknown line => .ok line

/-- `GerberFile.write` (rs274x.py:149-155): the text written. -/
def writeFile (st : FileSettings) : List Stmt → PyR Str
  | [] => .ok []
  | s :: l => do
    let t ← s.toGerber st
    let u ← writeFile st l
    .ok (t ++ '\n' :: u)

end Verif.Gerber
