import Verif.Py.Dict
import Verif.Model.ExcellonStmt

/-! # Tool tables (gerber/excellon_tool.py) -/

namespace Verif.Excellon
open Verif.Py Verif.Py.Re Verif.Cam Verif.Utils

/-- `[0-9/.]+` in a named group (excellon_tool.py:56). -/
def reSize (n : String) : Re := .grp n (plus fun c => isDig c || c == '/' || c == '.')

/-- `\s+` (excellon_tool.py:56). -/
def reBlank : Re := plus isSpace

/-- `[0-9]{1,2}` in a named group (excellon_tool.py:57). -/
def reId (n : String) : Re := .grp n (.seq (.chr isDig) (opt (.chr isDig)))

/-- `allegro_tool` (excellon_tool.py:55). -/
def reAllegroTool : Re := cat [reSize "size", reBlank, .grp "plated" (.alt (lit 'P') (lit 'N')),
  reBlank, lit 'T', .grp "toolid" (.seq (.chr isDig) (.chr isDig)), reBlank, reSize "xtol", reBlank,
  reSize "ytol"]

/-- The common tail of the comment expressions (excellon_tool.py:56-59), up to the unit. -/
def reHolesize (unit : Str) : List Re := [str ". = ".toList, reSize "size",
  str " Tolerance = +".toList, reSize "xtol", str "/-".toList, reSize "ytol", lit ' ',
  .grp "plated" (.alt (str "PLATED".toList) (.alt (str "NON_PLATED".toList)
    (str "OPTIONAL".toList))),
  str unit, str " Quantity = ".toList, plus isDig]

/-- `allegro_comment_mils`, `allegro_comment_mm` (excellon_tool.py:56, 58). -/
def reComment (unit : Str) : Re := cat ([str "Holesize ".toList, reId "toolid"] ++ reHolesize unit)

/-- `allegro2_comment_mils`, `allegro2_comment_mm` (excellon_tool.py:57, 59). -/
def reComment2 (unit : Str) : Re :=
  cat ([lit 'T', reId "toolid", str " Holesize ".toList, reId "toolid2"] ++ reHolesize unit)

/-- `matchers` (excellon_tool.py:61-67); `true` for mils. -/
def matchers : List (Re × Bool) := [(reAllegroTool, true), (reComment " MILS".toList, true),
  (reComment2 " MILS".toList, true), (reComment " MM".toList, false), (reComment2 " MM".toList, false)]

/-- `_convert_length` (excellon_tool.py:117-128). -/
def convertLength (units : String) (v : ℚ) (mils : Bool) : ℚ :=
  let v := if mils then v / (393700787402 / 10 ^ 10) else v
  if units = "inch" then v / (254 / 10) else v

/-- Plating of a comment (excellon_tool.py:97-104). -/
def platedOf (s : Str) : Option String :=
  if s = "PLATED".toList then some "plated" else if s = "NON_PLATED".toList then some "nonplated"
  else if s = "OPTIONAL".toList then some "optional" else none

/-- `ExcellonToolDefinitionParser._parse` (excellon_tool.py:79-115) for one line. -/
def toolDefLine (units : String) (tools : List (ℤ × Tool)) (line : Str) : PyR (List (ℤ × Tool)) :=
  match matchers.findSome? fun m => (m.1.pyMatch line).map fun r => (r.1, m.2) with
  | none => .ok tools
  | some (cs, mils) => do
    let size ← pyFloat ((cs.get "size").getD [])
    let id ← pyInt ((cs.get "toolid").getD [])
    let _ ← pyFloat ((cs.get "xtol").getD [])
    let _ ← pyFloat ((cs.get "ytol").getD [])
    let t : Tool := { settings := none, number := id, diameter := some (convertLength units size mils),
                      plated := platedOf ((cs.get "plated").getD []) }
    .ok (dictSet tools id t)

/-- `ExcellonToolDefinitionParser(settings).parse_raw(data)` (excellon_tool.py:73-77). -/
def toolDefs (units : String) (data : Str) : PyR (List (ℤ × Tool)) :=
  (pyLines data).foldlM (fun ts l => toolDefLine units ts (strip l)) []

/-- Words of `s.split()`: maximal runs without white space (excellon_tool.py:172). -/
def pyWords (s : Str) : List Str := (s.splitOnP isSpace).filter (· ≠ [])

/-- The header of a PADS report: `====\s+====\s+====\s+====\s+=====\s+===` (excellon_tool.py:149). -/
def reHeader : Re := cat [str "====".toList, reBlank, str "====".toList, reBlank, str "====".toList,
  reBlank, str "====".toList, reBlank, str "=====".toList, reBlank, str "===".toList]

/-- Plating in a report (excellon_tool.py:180-185). -/
def platedMark (s : Str) : Option String :=
  if s = ['x'] then some "plated" else if s = ['-'] then some "nonplated" else none

/-- `ExcellonReportParser._parse` (excellon_tool.py:163-197). -/
def reportLine (st : Bool × List (ℤ × Tool)) (line : Str) : PyR (Bool × List (ℤ × Tool)) :=
  match line with
  | [] => .ok st
  | c :: _ =>
    if !st.1 then .ok ((reHeader.pyMatch line).isSome, st.2)
    else if c = '=' then .ok st
    else match pyWords line with
      | [a, b, p, f, s, q] => do
        let id ← pyInt a
        let size ← pyFloat b
        let feed ← pyInt f
        let speed ← pyInt s
        let _ ← pyInt q
        let t : Tool := { settings := none, number := id, diameter := some size, plated := platedMark p,
                          feedRate := some feed, rpm := some speed }
        .ok (true, dictSet st.2 id t)
      | _ => .ok st

/-- `ExcellonReportParser(settings).parse_raw(data)` (excellon_tool.py:157-161). -/
def reportTools (data : Str) : PyR (List (ℤ × Tool)) :=
  ((pyLines data).foldlM (fun st l => reportLine st (strip l)) (false, [])).map (·.2)

end Verif.Excellon
