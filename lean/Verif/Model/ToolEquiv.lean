import Verif.Model.ExcellonStmt

/-! # Comparing and copying drill tools (gerber/excellon_statements.py) -/

namespace Verif.Excellon
open Verif.Py Verif.Cam

/-- `ExcellonTool.equivalent` of two tools (excellon_statements.py:253-268).  The units are compared last, so that a tool
without settings is an error only if everything before is equal.  Objects of other classes (258-259) are not modelled. -/
def Tool.equivalent (a b : Tool) : PyR Bool :=
  if a.diameter = b.diameter ∧ a.feedRate = b.feedRate ∧ a.retractRate = b.retractRate ∧ a.rpm = b.rpm ∧
      a.depthOffset = b.depthOffset ∧ a.maxHitCount = b.maxHitCount ∧ a.plated = b.plated then
    match a.settings, b.settings with
    | some s, some t => .ok (decide (s.units = t.units))
    | _, _ => .error .attributeError
  else .ok false

/-- `ExcellonTool.from_tool` (excellon_statements.py:123-136) with the constructor (200-213): a copy without settings. -/
def Tool.fromTool (t : Tool) : Tool :=
  { settings := none, number := t.number, feedRate := t.feedRate, retractRate := t.retractRate, rpm := t.rpm,
    diameter := t.diameter, maxHitCount := t.maxHitCount, depthOffset := t.depthOffset, plated := t.plated, hitCount := 0 }

/-- `ExcellonTool.to_excellon()` without settings (excellon_statements.py:215-219): those of the tool. -/
def Tool.ownText (t : Tool) : PyR Str :=
  match t.settings with
  | some st => t.toExcellon st
  | none => .error .attributeError

end Verif.Excellon
