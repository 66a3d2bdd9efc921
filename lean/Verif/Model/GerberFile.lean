import Verif.Model.GerberEval

/-! # Gerber files: bounds, offset, unit conversion (gerber/rs274x.py:75-174) -/

namespace Verif.Gerber
open Verif.Py Verif.Cam Verif.Utils

/-- The loop of `bounds` (rs274x.py:118-132) for one axis, given the coordinates of that axis. -/
def boundsLoop : ℚ → ℚ → List ℚ → ℚ × ℚ
  | lo, hi, [] => (lo, hi)
  | lo, hi, v :: l => boundsLoop (min v lo) (max v hi) l

/-- `stmt.x` of the coordinate statements that have one (rs274x.py:123-126). -/
def xsOf (stmts : List Stmt) : List ℚ := stmts.filterMap fun
  | .coord c => c.x
  | _ => none

/-- `stmt.y` of the coordinate statements that have one (rs274x.py:128-130). -/
def ysOf (stmts : List Stmt) : List ℚ := stmts.filterMap fun
  | .coord c => c.y
  | _ => none

/-- `GerberFile.bounds` (rs274x.py:117-132). -/
def bounds (stmts : List Stmt) : (ℚ × ℚ) × (ℚ × ℚ) :=
  (boundsLoop 1000000 (-1000000) (xsOf stmts), boundsLoop 1000000 (-1000000) (ysOf stmts))

/-- `GerberFile.size` (rs274x.py:112-115). -/
def size (stmts : List Stmt) : ℚ × ℚ :=
  let b := bounds stmts
  (b.1.2 - b.1.1, b.2.2 - b.2.1)

/-- `CoordStmt.offset` (gerber_statements.py:1026-1034). -/
def Coord.offset (dx dy : ℚ) (c : Coord) : Coord := { c with
  x := c.x.map (· + dx), y := c.y.map (· + dy), i := c.i.map (· + dx), j := c.j.map (· + dy) }

/-- `offset` of the statement classes (gerber_statements.py:67-68, 723-727, 797-801, 1026-1034). -/
def Stmt.offset (dx dy : ℚ) : Stmt → Stmt
  | .coord c => .coord (c.offset dx dy)
  | .of_ a b => .of_ (a + dx) (b + dy)
  | .sf a b => .sf (a + dx) (b + dy)
  | s => s

/-- Codes exchanged by `CoordStmt.to_metric` and `to_inch` (gerber_statements.py:1009-1010,
1023-1024). -/
def metricFunction (f : Option Str) : Option Str :=
  if f = some ['G', '7', '0'] then some ['G', '7', '1'] else f

/-- (gerber_statements.py:1009-1010) -/
def inchFunction (f : Option Str) : Option Str :=
  if f = some ['G', '7', '1'] then some ['G', '7', '0'] else f

/-- `to_metric` of a statement whose `units` are inch (gerber_statements.py:64-65, 221-222, 364-368,
462-466, 715-721, 789-795, 1012-1024).  The primitives of an `AMParamStmt` are those of its last
`build`; their conversion is not part of `Stmt.am`. -/
def Stmt.inchToMetric : Stmt → Stmt
  | .mo _ => .mo "metric"
  | .ad d s mods => .ad d s (mods.map (·.map metric))
  | .of_ a b => .of_ (metric a) (metric b)
  | .sf a b => .sf (metric a) (metric b)
  | .coord c => .coord ⟨metricFunction c.function, c.x.map metric, c.y.map metric,
      c.i.map metric, c.j.map metric, c.op⟩
  | s => s

/-- `to_inch` of a statement whose `units` are metric (gerber_statements.py:61-62, 218-219, 358-362,
456-460, 707-713, 781-787, 998-1010). -/
def Stmt.metricToInch : Stmt → Stmt
  | .mo _ => .mo "inch"
  | .ad d s mods => .ad d s (mods.map (·.map inch))
  | .of_ a b => .of_ (inch a) (inch b)
  | .sf a b => .sf (inch a) (inch b)
  | .coord c => .coord ⟨inchFunction c.function, c.x.map inch, c.y.map inch,
      c.i.map inch, c.j.map inch, c.op⟩
  | s => s

/-- The statements of a file with their common `units` attribute, which `parse_raw` sets to the units
of the file (rs274x.py:273-275).  (`MOParamStmt` keeps a stale `units` attribute, which it never
reads.) -/
structure Program where
  statements : List Stmt
  units : String
  deriving DecidableEq

/-- `GerberFile.to_metric` on the statements (rs274x.py:163-169): every statement converts itself if
its units are inch. -/
def Program.toMetric (p : Program) : Program :=
  if p.units ≠ "metric" then
    ⟨if p.units = "inch" then p.statements.map Stmt.inchToMetric else p.statements, "metric"⟩
  else p

/-- `GerberFile.to_inch` on the statements (rs274x.py:155-161). -/
def Program.toInch (p : Program) : Program :=
  if p.units ≠ "inch" then
    ⟨if p.units = "metric" then p.statements.map Stmt.metricToInch else p.statements, "inch"⟩
  else p

/-- `GerberFile.offset` on the statements (rs274x.py:171-173). -/
def Program.offset (p : Program) (dx dy : ℚ) : Program :=
  ⟨p.statements.map (Stmt.offset dx dy), p.units⟩

end Verif.Gerber
