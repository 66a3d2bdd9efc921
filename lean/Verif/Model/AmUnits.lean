import Verif.Model.AmPrim
import Verif.Model.GerberFile

/-! # Unit conversion of aperture macros (`to_inch`, `to_metric` in gerber/am_statements.py, and of
`AMParamStmt`, gerber/gerber_statements.py:456-466) -/

namespace Verif.Am

open Verif.Py Verif.Gerber Verif.Utils

/-- `tuple([inch(x) for x in point])` (am_statements.py:206). -/
def ptInch (p : ℚ × ℚ) : ℚ × ℚ := (inch p.1, inch p.2)

/-- `tuple([metric(x) for x in point])` (am_statements.py:210). -/
def ptMetric (p : ℚ × ℚ) : ℚ × ℚ := (metric p.1, metric p.2)

/-- `to_inch` of the primitive classes (am_statements.py:132-133, 204-206, 290-293, 416-418, 529-531, 631-637,
729-733, 901-904, 1007-1010, 1039-1040). -/
def AmPrim.toInch : AmPrim → AmPrim
  | .comment c => .comment c
  | .circle on d p => .circle on (inch d) (ptInch p)
  | .vectorLine code on w s e r => .vectorLine code on (inch w) (ptInch s) (ptInch e) r
  | .outline on s ps r => .outline on (ptInch s) (ps.map ptInch) r
  | .polygon on n p d r => .polygon on n (ptInch p) (inch d) r
  | .moire p d t g n ct cl r => .moire (ptInch p) (inch d) (inch t) (inch g) n (inch ct) (inch cl) r
  | .thermal p o i g r => .thermal (ptInch p) (inch o) (inch i) (inch g) r
  | .centerLine on w h c r => .centerLine on (inch w) (inch h) (ptInch c) r
  | .lowerLeft on w h c r => .lowerLeft on (inch w) (inch h) (ptInch c) r
  | .unsupported t => .unsupported t

/-- `to_metric` of the primitive classes (am_statements.py:135-136, 208-210, 295-298, 420-422, 533-535, 639-645,
735-739, 906-909, 1012-1015, 1042-1043). -/
def AmPrim.toMetric : AmPrim → AmPrim
  | .comment c => .comment c
  | .circle on d p => .circle on (metric d) (ptMetric p)
  | .vectorLine code on w s e r => .vectorLine code on (metric w) (ptMetric s) (ptMetric e) r
  | .outline on s ps r => .outline on (ptMetric s) (ps.map ptMetric) r
  | .polygon on n p d r => .polygon on n (ptMetric p) (metric d) r
  | .moire p d t g n ct cl r =>
    .moire (ptMetric p) (metric d) (metric t) (metric g) n (metric ct) (metric cl) r
  | .thermal p o i g r => .thermal (ptMetric p) (metric o) (metric i) (metric g) r
  | .centerLine on w h c r => .centerLine on (metric w) (metric h) (ptMetric c) r
  | .lowerLeft on w h c r => .lowerLeft on (metric w) (metric h) (ptMetric c) r
  | .unsupported t => .unsupported t

/-- What unit conversion uses and changes of an `AMParamStmt` (gerber_statements.py:389-472). -/
structure MacroStmt where
  units : String
  primitives : List AmPrim
  deriving DecidableEq

/-- `AMParamStmt.to_inch` (gerber_statements.py:456-460). -/
def MacroStmt.toInch (m : MacroStmt) : MacroStmt :=
  if m.units = "metric" then ⟨"inch", m.primitives.map AmPrim.toInch⟩ else m

/-- `AMParamStmt.to_metric` (gerber_statements.py:462-466). -/
def MacroStmt.toMetric (m : MacroStmt) : MacroStmt :=
  if m.units = "inch" then ⟨"metric", m.primitives.map AmPrim.toMetric⟩ else m

/-- The statements of a file and, by their places, the primitives of the AM statements (rs274x.py:103-106). -/
structure MacroFile where
  program : Program
  prims : ℕ → List AmPrim

/-- `GerberFile.to_metric` on the statements (rs274x.py:163-169). -/
def MacroFile.toMetric (f : MacroFile) : MacroFile :=
  ⟨f.program.toMetric, if f.program.units ≠ "metric" then
    fun i => (MacroStmt.toMetric ⟨f.program.units, f.prims i⟩).primitives else f.prims⟩

/-- `GerberFile.to_inch` on the statements (rs274x.py:155-161). -/
def MacroFile.toInch (f : MacroFile) : MacroFile :=
  ⟨f.program.toInch, if f.program.units ≠ "inch" then
    fun i => (MacroStmt.toInch ⟨f.program.units, f.prims i⟩).primitives else f.prims⟩

/-- The statements read from the file that is written (rs274x.py:149-155). -/
def MacroFile.readAgain (f : MacroFile) : List Stmt := rewritten f.prims 0 f.program.statements

end Verif.Am
